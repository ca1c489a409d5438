import Verif.Spec.Locations

/-! # Questions which are answered by several relations

A geometry is given by a function which tells where points are located with respect to it.  Nothing here
mentions functions of the model. -/

namespace Orient

variable {P : Type}

/-- No point belongs to both geometries. -/
def NoCommon (l l' : P → Location) : Prop := ∀ p, l p = .exterior ∨ l' p = .exterior

/-- All points of the first geometry belong to the second one. -/
def PartOf (l l' : P → Location) : Prop := ∀ p, l p ≠ .exterior → l' p ≠ .exterior

/-- All points of the first geometry are interior to the second one. -/
def InsideOf (l l' : P → Location) : Prop := ∀ p, l p ≠ .exterior → l' p = .interior

/-- A point of the first geometry is interior to the second one. -/
def Enters (l l' : P → Location) : Prop := ∃ p, l p ≠ .exterior ∧ l' p = .interior

/-- A point is interior to both geometries. -/
def Intermix (l l' : P → Location) : Prop := ∃ p, l p = .interior ∧ l' p = .interior

/-- The relations of a geometry to a geometry of which it is a part. -/
def Relation.IsPart : Relation → Prop
  | .equal | .component | .enclosed | .within => True
  | _ => False

/-- The relations of a geometry to its parts. -/
def Relation.IsWhole : Relation → Prop
  | .equal | .composite | .encloses | .cover => True
  | _ => False

/-- The relations of linear geometries with points inside of the other geometry. -/
def Relation.IsInside : Relation → Prop
  | .cross | .enclosed | .within => True
  | _ => False

/-- What an answer about a linear and an areal geometry says for certain. -/
structure LinearTrust (l l' : P → Location) (r : Relation) : Prop where
  disjoint : r = .disjoint ↔ NoCommon l l'
  within : r = .within ↔ InsideOf l l'
  part : r.IsPart → PartOf l l'

/-- What an answer about linear geometries says for certain. -/
structure CurvesTrust (l l' : P → Location) (r : Relation) : Prop where
  disjoint : r = .disjoint ↔ NoCommon l l'
  part : r.IsPart ↔ PartOf l l'

/-- What an answer about areal geometries says for certain. -/
structure ArealTrust (l l' : P → Location) (r : Relation) : Prop where
  disjoint : r = .disjoint ↔ NoCommon l l'
  within : InsideOf l l' → r = .within
  cover : InsideOf l' l → r = .cover
  part : r.IsPart → PartOf l l'
  whole : r.IsWhole → PartOf l' l
  intermix : Intermix l l' → r ≠ .touch

/-- `WITHIN` and `COVER` are answered exactly for geometries inside of each other. -/
def ExactInside (l l' : P → Location) (r : Relation) : Prop :=
  (r = .within ↔ InsideOf l l') ∧ (r = .cover ↔ InsideOf l' l)

/-- The answer is `DISJOINT` or `TOUCH` exactly for geometries without common inner points. -/
def ExactIntermix (l l' : P → Location) (r : Relation) : Prop :=
  (r = .disjoint ∨ r = .touch) ↔ ¬ Intermix l l'

end Orient
