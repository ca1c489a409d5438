import Verif.Spec.Geometry

/-! # Relations to a polygon and to its border and holes

Nothing here mentions functions of the model. -/

namespace Orient

/-- The location of a point with respect to a polygon, to the region in its border and to the regions in its holes. -/
def HoledLocations (x b h : Location) : Prop :=
  (b = .exterior ∧ h = .exterior ∧ x = .exterior) ∨ (b = .boundary ∧ h ≠ .interior ∧ x = .boundary) ∨
    (b = .interior ∧ ((h = .exterior ∧ x = .interior) ∨ (h = .boundary ∧ x = .boundary) ∨
      (h = .interior ∧ x = .exterior)))

/-- The possible relations of an areal geometry to a polygon with holes, from its relation to the region in the border of
the polygon and its relation to the holes as regions; pairs which are not listed are impossible. -/
def Relation.carve : Relation → Relation → List Relation
  | .disjoint, .disjoint => [.disjoint]
  | .touch, .disjoint => [.touch]
  | .touch, .touch => [.touch]
  | .overlap, .disjoint => [.overlap]
  | .overlap, .touch => [.overlap, .encloses, .composite]
  | .overlap, .overlap => [.disjoint, .touch, .overlap, .cover, .encloses, .composite]
  | .overlap, .cover => [.overlap]
  | .overlap, .encloses => [.overlap]
  | .overlap, .composite => [.touch, .overlap]
  | .cover, .cover => [.cover]
  | .encloses, .cover => [.encloses]
  | .encloses, .encloses => [.encloses]
  | .composite, .cover => [.encloses]
  | .composite, .encloses => [.encloses]
  | .equal, .cover => [.encloses]
  | .equal, .encloses => [.encloses]
  | .enclosed, .disjoint => [.enclosed]
  | .enclosed, .touch => [.equal, .component, .enclosed]
  | .enclosed, .overlap => [.overlap, .encloses, .composite]
  | .enclosed, .cover => [.overlap]
  | .enclosed, .encloses => [.overlap]
  | .enclosed, .composite => [.overlap]
  | .enclosed, .equal => [.touch]
  | .enclosed, .component => [.touch]
  | .enclosed, .enclosed => [.touch]
  | .within, .disjoint => [.within]
  | .within, .touch => [.component, .enclosed]
  | .within, .overlap => [.overlap]
  | .within, .cover => [.overlap]
  | .within, .encloses => [.overlap]
  | .within, .composite => [.overlap]
  | .within, .equal => [.touch]
  | .within, .component => [.touch]
  | .within, .enclosed => [.touch]
  | .within, .within => [.disjoint]
  | _, _ => []

/-- The same for a linear geometry. -/
def Relation.carveLinear : Relation → Relation → List Relation
  | .disjoint, .disjoint => [.disjoint]
  | .touch, .disjoint => [.touch]
  | .touch, .touch => [.touch]
  | .cross, .disjoint => [.cross]
  | .cross, .touch => [.touch, .cross]
  | .cross, .cross => [.disjoint, .touch, .cross]
  | .component, .disjoint => [.component]
  | .component, .touch => [.component]
  | .enclosed, .disjoint => [.enclosed]
  | .enclosed, .touch => [.component, .enclosed]
  | .enclosed, .cross => [.touch, .cross]
  | .enclosed, .component => [.component]
  | .enclosed, .enclosed => [.touch]
  | .within, .disjoint => [.within]
  | .within, .touch => [.enclosed]
  | .within, .cross => [.cross]
  | .within, .component => [.component]
  | .within, .enclosed => [.touch]
  | .within, .within => [.disjoint]
  | _, _ => []

end Orient
