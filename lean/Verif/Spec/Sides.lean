import Verif.Spec.Geometry

/-! # Relations of linear geometries which do not meet the boundary of an areal geometry

Nothing here mentions functions of the model. -/

namespace Orient

/-- The relation of a linear geometry off the boundary of an areal one, by the locations of points of its pieces. -/
def Relation.ofSides (l : List Location) : Relation :=
  if ∀ x ∈ l, x = .interior then .within else if ∀ x ∈ l, x = .exterior then .disjoint else .cross

/-- The relation of two areal geometries whose boundaries do not meet, by the locations of points of the contours of the
first one with respect to the second one and the other way round. -/
def Relation.ofBothSides (l l' : List Location) : Relation :=
  if ∀ x ∈ l', x = .exterior then
    if ∀ x ∈ l, x = .exterior then .disjoint else if ∀ x ∈ l, x = .interior then .within else .overlap
  else if (∀ x ∈ l, x = .exterior) ∧ ∀ x ∈ l', x = .interior then .cover else .overlap

end Orient
