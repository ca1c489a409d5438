import Verif.Spec.Geometry

/-! # Relations in terms of locations of points

A geometry is given by a function which tells where points are located with respect to it.  Nothing here
mentions sets of points or functions of the model. -/

namespace Orient

variable {P : Type}

/-- The relation of a linear geometry to an areal one. -/
def LinearLocations (l l' : P → Location) : Relation → Prop
  | .disjoint => ∀ p, l p = .boundary → l' p = .exterior
  | .within => ∀ p, l p = .boundary → l' p = .interior
  | .component => ∀ p, l p = .boundary → l' p = .boundary
  | .enclosed => (∀ p, l p = .boundary → l' p ≠ .exterior) ∧ (∃ p, l p = .boundary ∧ l' p = .interior) ∧
      ∃ p, l p = .boundary ∧ l' p = .boundary
  | .touch => (∀ p, l p = .boundary → l' p ≠ .interior) ∧ (∃ p, l p = .boundary ∧ l' p = .exterior) ∧
      ∃ p, l p = .boundary ∧ l' p = .boundary
  | .cross => (∃ p, l p = .boundary ∧ l' p = .interior) ∧ ∃ p, l p = .boundary ∧ l' p = .exterior
  | _ => False

/-- The relation of two areal geometries. -/
def ArealLocations (l l' : P → Location) : Relation → Prop
  | .disjoint => ∀ p, l p = .exterior ∨ l' p = .exterior
  | .touch => (∃ p, l p = .boundary ∧ l' p = .boundary) ∧
      ∀ p, l p = .exterior ∨ l' p = .exterior ∨ (l p = .boundary ∧ l' p = .boundary)
  | .overlap => (∃ p, l p = .interior ∧ l' p = .interior) ∧ (∃ p, l p = .interior ∧ l' p = .exterior) ∧
      ∃ p, l p = .exterior ∧ l' p = .interior
  | .equal => ∀ p, l p = l' p
  | .within => ∀ p, l p ≠ .exterior → l' p = .interior
  | .cover => ∀ p, l' p ≠ .exterior → l p = .interior
  | .component => (∀ p, l p ≠ .exterior → l' p = l p) ∧ ∃ p, l p = .exterior ∧ l' p = .interior
  | .composite => (∀ p, l' p ≠ .exterior → l p = l' p) ∧ ∃ p, l p = .interior ∧ l' p = .exterior
  | .enclosed => (∀ p, l p = .interior → l' p = .interior) ∧ (∀ p, l p = .boundary → l' p ≠ .exterior) ∧
      (∃ p, l p = .boundary ∧ l' p = .interior) ∧ ∃ p, l p = .boundary ∧ l' p = .boundary
  | .encloses => (∀ p, l' p = .interior → l p = .interior) ∧ (∀ p, l' p = .boundary → l p ≠ .exterior) ∧
      (∃ p, l p = .interior ∧ l' p = .boundary) ∧ ∃ p, l p = .boundary ∧ l' p = .boundary
  | .cross => False

end Orient
