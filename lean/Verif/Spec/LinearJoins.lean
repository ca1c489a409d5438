import Verif.Spec.Geometry

/-! # Relations of a linear geometry which consists of two parts to a linear geometry

Nothing here mentions functions of the model. -/

namespace Orient

/-- `TOUCH` and `CROSS` are not told apart. -/
def Relation.flat : Relation → Relation
  | .cross => .touch
  | r => r

/-- The possible relations of the union of two linear geometries without a common piece to a linear geometry, from the
relations of the parts; pairs which are not listed are impossible. -/
def Relation.linearUnite : Relation → Relation → List Relation
  | .disjoint, .disjoint => [.disjoint]
  | .disjoint, .touch | .touch, .disjoint => [.touch]
  | .touch, .touch => [.touch, .cross]
  | .cross, .disjoint | .cross, .touch | .cross, .cross | .disjoint, .cross | .touch, .cross => [.cross]
  | .equal, .disjoint | .equal, .touch | .equal, .cross => [.composite]
  | .disjoint, .equal | .touch, .equal | .cross, .equal => [.composite]
  | .composite, .disjoint | .composite, .touch | .composite, .cross => [.composite]
  | .disjoint, .composite | .touch, .composite | .cross, .composite => [.composite]
  | .component, .component => [.component, .equal]
  | .component, .overlap | .overlap, .component | .overlap, .overlap => [.overlap, .composite]
  | .component, .disjoint | .component, .touch | .component, .cross => [.overlap]
  | .disjoint, .component | .touch, .component | .cross, .component => [.overlap]
  | .overlap, .disjoint | .overlap, .touch | .overlap, .cross => [.overlap]
  | .disjoint, .overlap | .touch, .overlap | .cross, .overlap => [.overlap]
  | _, _ => []

end Orient
