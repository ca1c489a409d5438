import Verif.Spec.Geometry

/-! # Relations of geometries which consist of several parts

Nothing here mentions functions of the model. -/

namespace Orient

/-- The relation to an areal geometry of a linear geometry whose pieces have the relations `R` to it. -/
def JoinOf (R : Relation → Prop) : Relation → Prop
  | .disjoint => ∀ r, R r → r = .disjoint
  | .within => ∀ r, R r → r = .within
  | .component => ∀ r, R r → r = .component
  | .enclosed => (∀ r, R r → r = .within ∨ r = .enclosed ∨ r = .component) ∧ (R .within ∨ R .enclosed) ∧
      (R .enclosed ∨ R .component)
  | .touch => (∀ r, R r → r = .disjoint ∨ r = .touch ∨ r = .component) ∧ (R .disjoint ∨ R .touch) ∧
      (R .touch ∨ R .component)
  | .cross => (R .within ∨ R .enclosed ∨ R .cross) ∧ (R .disjoint ∨ R .touch ∨ R .cross)
  | _ => False

/-- The location of a point with respect to the union of two areal geometries without common inner points. -/
def PartLocations (x y z : Location) : Prop :=
  (x = .exterior ∧ z = y) ∨ (y = .exterior ∧ z = x) ∨ (x = .boundary ∧ y = .boundary ∧ z = .boundary)

/-- The possible relations of the union of two areal geometries without common inner points to an areal geometry,
from the relations of the parts; pairs which are not listed are impossible. -/
def Relation.unite : Relation → Relation → List Relation
  | .disjoint, .disjoint => [.disjoint]
  | .disjoint, .touch => [.touch]
  | .disjoint, .overlap => [.overlap]
  | .disjoint, .composite => [.composite]
  | .disjoint, .encloses => [.encloses]
  | .disjoint, .cover => [.cover]
  | .disjoint, .equal => [.composite]
  | .disjoint, .component => [.overlap]
  | .disjoint, .enclosed => [.overlap]
  | .disjoint, .within => [.overlap]
  | .touch, .disjoint => [.touch]
  | .touch, .touch => [.touch]
  | .touch, .overlap => [.overlap]
  | .touch, .composite => [.composite]
  | .touch, .encloses => [.encloses]
  | .touch, .equal => [.composite]
  | .touch, .component => [.overlap]
  | .touch, .enclosed => [.overlap]
  | .touch, .within => [.overlap]
  | .overlap, .disjoint => [.overlap]
  | .overlap, .touch => [.overlap]
  | .overlap, .overlap => [.overlap, .composite, .encloses, .cover]
  | .overlap, .component => [.overlap, .composite, .encloses]
  | .overlap, .enclosed => [.overlap]
  | .overlap, .within => [.overlap]
  | .composite, .disjoint => [.composite]
  | .composite, .touch => [.composite]
  | .encloses, .disjoint => [.encloses]
  | .encloses, .touch => [.encloses]
  | .cover, .disjoint => [.cover]
  | .equal, .disjoint => [.composite]
  | .equal, .touch => [.composite]
  | .component, .disjoint => [.overlap]
  | .component, .touch => [.overlap]
  | .component, .overlap => [.overlap, .composite, .encloses]
  | .component, .component => [.equal, .component]
  | .component, .enclosed => [.enclosed]
  | .component, .within => [.enclosed]
  | .enclosed, .disjoint => [.overlap]
  | .enclosed, .touch => [.overlap]
  | .enclosed, .overlap => [.overlap]
  | .enclosed, .component => [.enclosed]
  | .enclosed, .enclosed => [.enclosed]
  | .enclosed, .within => [.enclosed]
  | .within, .disjoint => [.overlap]
  | .within, .touch => [.overlap]
  | .within, .overlap => [.overlap]
  | .within, .component => [.enclosed]
  | .within, .enclosed => [.enclosed]
  | .within, .within => [.within]
  | _, _ => []

end Orient
