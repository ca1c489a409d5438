import Verif.Spec.Geometry

/-! # Relations of a linear geometry to a contour and to the region in the contour

Nothing here mentions functions of the model. -/

namespace Orient

/-- The possible relations of a segment to a region, from its relation to the boundary. -/
def Relation.segmentFilled : Relation → List Relation
  | .disjoint => [.disjoint, .within]
  | .touch => [.touch, .enclosed]
  | .cross => [.cross]
  | .overlap => [.touch, .cross, .enclosed]
  | .component => [.component]
  | _ => []

/-- The possible relations of a multisegment to a region, from its relation to the boundary. -/
def Relation.multisegmentFilled : Relation → List Relation
  | .disjoint => [.disjoint, .cross, .within]
  | .touch | .overlap | .composite => [.touch, .cross, .enclosed]
  | .cross => [.cross]
  | .equal | .component => [.component]
  | _ => []

/-- The possible relations of a contour to a region, from its relation to the boundary. -/
def Relation.contourFilled : Relation → List Relation
  | .disjoint => [.disjoint, .within]
  | .touch | .overlap => [.touch, .cross, .enclosed]
  | .cross => [.cross]
  | .equal => [.component]
  | _ => []

end Orient
