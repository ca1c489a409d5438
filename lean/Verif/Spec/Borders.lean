import Verif.Spec.Geometry

/-! # Relations of an areal geometry and of its boundary to another areal geometry

Nothing here mentions functions of the model. -/

namespace Orient

/-- The possible relations of the boundary of an areal geometry, from the relation of the geometry. -/
def Relation.border : Relation → List Relation
  | .disjoint => [.disjoint]
  | .touch => [.touch, .component]
  | .overlap => [.disjoint, .touch, .cross, .component, .enclosed, .within]
  | .cover => [.disjoint]
  | .encloses => [.touch, .component]
  | .composite => [.touch, .component]
  | .equal => [.component]
  | .component => [.component]
  | .enclosed => [.enclosed]
  | .within => [.within]
  | .cross => []

/-- The relation of the boundary of a region to a region, from the relation of the regions. -/
def Relation.regionBorder : Relation → List Relation
  | .disjoint => [.disjoint]
  | .touch => [.touch]
  | .overlap => [.cross]
  | .cover => [.disjoint]
  | .encloses => [.touch]
  | .equal => [.component]
  | .enclosed => [.enclosed]
  | .within => [.within]
  | _ => []

/-- The possible relations of the boundaries of regions, from the relation of the regions. -/
def Relation.contours : Relation → List Relation
  | .disjoint | .within | .cover => [.disjoint]
  | .equal => [.equal]
  | .touch | .enclosed | .encloses => [.touch, .overlap]
  | .overlap => [.touch, .cross, .overlap]
  | _ => []

/-- The relations of the boundary of a region `a` to a region `b` and of the boundary of `b` to `a`, from the relation of `a`
to `b`. -/
def Relation.bothBorders : Relation → Option (Relation × Relation)
  | .disjoint => some (.disjoint, .disjoint)
  | .touch => some (.touch, .touch)
  | .overlap => some (.cross, .cross)
  | .cover => some (.disjoint, .within)
  | .encloses => some (.touch, .enclosed)
  | .equal => some (.component, .component)
  | .enclosed => some (.enclosed, .touch)
  | .within => some (.within, .disjoint)
  | _ => none

end Orient
