import Verif.Spec.LinearJoins

/-! # Composition of relations of linear geometries

Nothing here mentions functions of the model. -/

namespace Orient

/-- The possible relations of a linear geometry to a third one, from its relation to a second one and the relation of the
second one to the third one; `TOUCH` stands for `TOUCH` and `CROSS`. -/
def Relation.linearCompose : Relation → Relation → List Relation
  | .disjoint, .disjoint => [.disjoint, .touch, .overlap, .composite, .equal, .component]
  | .disjoint, .touch => [.disjoint, .touch, .overlap, .component]
  | .disjoint, .overlap => [.disjoint, .touch, .overlap, .component]
  | .disjoint, .composite => [.disjoint]
  | .disjoint, .equal => [.disjoint]
  | .disjoint, .component => [.disjoint, .touch, .overlap, .component]
  | .touch, .disjoint => [.disjoint, .touch, .overlap, .composite]
  | .touch, .touch => [.disjoint, .touch, .overlap, .composite, .equal, .component]
  | .touch, .overlap => [.disjoint, .touch, .overlap, .component]
  | .touch, .composite => [.disjoint, .touch]
  | .touch, .equal => [.touch]
  | .touch, .component => [.touch, .overlap, .component]
  | .overlap, .disjoint => [.disjoint, .touch, .overlap, .composite]
  | .overlap, .touch => [.disjoint, .touch, .overlap, .composite]
  | .overlap, .overlap => [.disjoint, .touch, .overlap, .composite, .equal, .component]
  | .overlap, .composite => [.disjoint, .touch, .overlap, .composite]
  | .overlap, .equal => [.overlap]
  | .overlap, .component => [.overlap, .component]
  | .composite, .disjoint => [.disjoint, .touch, .overlap, .composite]
  | .composite, .touch => [.touch, .overlap, .composite]
  | .composite, .overlap => [.overlap, .composite]
  | .composite, .composite => [.composite]
  | .composite, .equal => [.composite]
  | .composite, .component => [.overlap, .composite, .equal, .component]
  | .equal, .disjoint => [.disjoint]
  | .equal, .touch => [.touch]
  | .equal, .overlap => [.overlap]
  | .equal, .composite => [.composite]
  | .equal, .equal => [.equal]
  | .equal, .component => [.component]
  | .component, .disjoint => [.disjoint]
  | .component, .touch => [.disjoint, .touch]
  | .component, .overlap => [.disjoint, .touch, .overlap, .component]
  | .component, .composite => [.disjoint, .touch, .overlap, .composite, .equal, .component]
  | .component, .equal => [.component]
  | .component, .component => [.component]
  | _, _ => []

end Orient
