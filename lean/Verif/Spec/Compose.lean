import Verif.Spec.Geometry

/-! # Composition of relations

What the relation of a geometry to a second one and the relation of the second one to a third one say about the
relation of the first one to the third one.  Nothing here mentions functions of the model. -/

namespace Orient

/-- The possible relations of three areal geometries; pairs which are not listed say nothing. -/
def Relation.compose : Relation → Relation → List Relation
  | .disjoint, .touch => [.disjoint, .touch, .overlap, .component, .enclosed, .within]
  | .disjoint, .overlap => [.disjoint, .touch, .overlap, .component, .enclosed, .within]
  | .disjoint, .composite => [.disjoint]
  | .disjoint, .encloses => [.disjoint]
  | .disjoint, .cover => [.disjoint]
  | .disjoint, .equal => [.disjoint]
  | .disjoint, .component => [.disjoint, .touch, .overlap, .component, .enclosed, .within]
  | .disjoint, .enclosed => [.disjoint, .touch, .overlap, .component, .enclosed, .within]
  | .disjoint, .within => [.disjoint, .touch, .overlap, .component, .enclosed, .within]
  | .touch, .disjoint => [.disjoint, .touch, .overlap, .composite, .encloses, .cover]
  | .touch, .touch => [.disjoint, .touch, .overlap, .composite, .encloses, .equal, .component, .enclosed]
  | .touch, .overlap => [.disjoint, .touch, .overlap, .component, .enclosed, .within]
  | .touch, .composite => [.disjoint, .touch]
  | .touch, .encloses => [.disjoint, .touch]
  | .touch, .cover => [.disjoint]
  | .touch, .equal => [.touch]
  | .touch, .component => [.touch, .overlap, .component, .enclosed]
  | .touch, .enclosed => [.touch, .overlap, .component, .enclosed, .within]
  | .touch, .within => [.overlap, .enclosed, .within]
  | .overlap, .disjoint => [.disjoint, .touch, .overlap, .composite, .encloses, .cover]
  | .overlap, .touch => [.disjoint, .touch, .overlap, .composite, .encloses, .cover]
  | .overlap, .composite => [.disjoint, .touch, .overlap, .composite, .encloses, .cover]
  | .overlap, .encloses => [.disjoint, .touch, .overlap, .composite, .encloses, .cover]
  | .overlap, .cover => [.disjoint, .touch, .overlap, .composite, .encloses, .cover]
  | .overlap, .equal => [.overlap]
  | .overlap, .component => [.overlap, .component, .enclosed, .within]
  | .overlap, .enclosed => [.overlap, .component, .enclosed, .within]
  | .overlap, .within => [.overlap, .component, .enclosed, .within]
  | .composite, .disjoint => [.disjoint, .touch, .overlap, .composite, .encloses, .cover]
  | .composite, .touch => [.touch, .overlap, .composite, .encloses]
  | .composite, .overlap => [.overlap, .composite, .encloses, .cover]
  | .composite, .composite => [.composite]
  | .composite, .encloses => [.encloses]
  | .composite, .cover => [.cover]
  | .composite, .equal => [.composite]
  | .composite, .component => [.overlap, .composite, .encloses, .equal, .component, .enclosed]
  | .composite, .enclosed => [.overlap, .enclosed]
  | .composite, .within => [.overlap, .enclosed, .within]
  | .encloses, .disjoint => [.disjoint, .touch, .overlap, .composite, .encloses, .cover]
  | .encloses, .touch => [.touch, .overlap, .composite, .encloses, .cover]
  | .encloses, .overlap => [.overlap, .composite, .encloses, .cover]
  | .encloses, .composite => [.composite, .encloses, .cover]
  | .encloses, .encloses => [.encloses, .cover]
  | .encloses, .cover => [.cover]
  | .encloses, .equal => [.encloses]
  | .encloses, .component => [.overlap, .encloses]
  | .encloses, .enclosed => [.overlap, .composite, .encloses, .equal, .component, .enclosed]
  | .encloses, .within => [.overlap, .enclosed, .within]
  | .cover, .disjoint => [.disjoint, .touch, .overlap, .composite, .encloses, .cover]
  | .cover, .touch => [.overlap, .encloses, .cover]
  | .cover, .overlap => [.overlap, .composite, .encloses, .cover]
  | .cover, .composite => [.cover]
  | .cover, .encloses => [.cover]
  | .cover, .cover => [.cover]
  | .cover, .equal => [.cover]
  | .cover, .component => [.overlap, .encloses, .cover]
  | .cover, .enclosed => [.overlap, .encloses, .cover]
  | .cover, .within => [.overlap, .composite, .encloses, .cover, .equal, .component, .enclosed, .within]
  | .equal, .disjoint => [.disjoint]
  | .equal, .touch => [.touch]
  | .equal, .overlap => [.overlap]
  | .equal, .composite => [.composite]
  | .equal, .encloses => [.encloses]
  | .equal, .cover => [.cover]
  | .equal, .equal => [.equal]
  | .equal, .component => [.component]
  | .equal, .enclosed => [.enclosed]
  | .equal, .within => [.within]
  | .component, .disjoint => [.disjoint]
  | .component, .touch => [.disjoint, .touch]
  | .component, .overlap => [.disjoint, .touch, .overlap, .component, .enclosed, .within]
  | .component, .composite => [.disjoint, .touch, .overlap, .composite, .equal, .component]
  | .component, .encloses => [.disjoint, .touch, .overlap, .encloses, .component]
  | .component, .cover => [.disjoint, .overlap, .cover]
  | .component, .equal => [.component]
  | .component, .component => [.component]
  | .component, .enclosed => [.component, .enclosed, .within]
  | .component, .within => [.within]
  | .enclosed, .disjoint => [.disjoint]
  | .enclosed, .touch => [.disjoint, .touch]
  | .enclosed, .overlap => [.disjoint, .touch, .overlap, .component, .enclosed, .within]
  | .enclosed, .composite => [.disjoint, .touch, .overlap, .composite, .enclosed]
  | .enclosed, .encloses => [.disjoint, .touch, .overlap, .composite, .encloses, .equal, .component, .enclosed]
  | .enclosed, .cover => [.disjoint, .touch, .overlap, .composite, .encloses, .cover]
  | .enclosed, .equal => [.enclosed]
  | .enclosed, .component => [.enclosed]
  | .enclosed, .enclosed => [.enclosed, .within]
  | .enclosed, .within => [.within]
  | .within, .disjoint => [.disjoint]
  | .within, .touch => [.disjoint]
  | .within, .overlap => [.disjoint, .touch, .overlap, .component, .enclosed, .within]
  | .within, .composite => [.disjoint, .overlap, .within]
  | .within, .encloses => [.disjoint, .touch, .overlap, .component, .enclosed, .within]
  | .within, .equal => [.within]
  | .within, .component => [.within]
  | .within, .enclosed => [.within]
  | .within, .within => [.within]
  | _, _ => [.disjoint, .touch, .overlap, .composite, .encloses, .cover, .equal, .component, .enclosed, .within]

/-- The possible relations of a linear geometry and two areal ones; pairs which are not listed say nothing. -/
def Relation.composeLinear : Relation → Relation → List Relation
  | .disjoint, .composite => [.disjoint]
  | .disjoint, .encloses => [.disjoint]
  | .disjoint, .cover => [.disjoint]
  | .disjoint, .equal => [.disjoint]
  | .touch, .disjoint => [.disjoint, .touch, .cross]
  | .touch, .touch => [.disjoint, .touch, .cross, .component, .enclosed]
  | .touch, .composite => [.disjoint, .touch]
  | .touch, .encloses => [.disjoint, .touch]
  | .touch, .cover => [.disjoint]
  | .touch, .equal => [.touch]
  | .touch, .component => [.touch, .cross, .component, .enclosed]
  | .touch, .enclosed => [.touch, .cross, .component, .enclosed, .within]
  | .touch, .within => [.cross, .enclosed, .within]
  | .cross, .disjoint => [.disjoint, .touch, .cross]
  | .cross, .touch => [.disjoint, .touch, .cross]
  | .cross, .composite => [.disjoint, .touch, .cross]
  | .cross, .encloses => [.disjoint, .touch, .cross]
  | .cross, .cover => [.disjoint, .touch, .cross]
  | .cross, .equal => [.cross]
  | .cross, .component => [.cross, .enclosed, .within]
  | .cross, .enclosed => [.cross, .enclosed, .within]
  | .cross, .within => [.cross, .enclosed, .within]
  | .component, .disjoint => [.disjoint]
  | .component, .touch => [.disjoint, .touch, .component]
  | .component, .composite => [.disjoint, .touch, .component]
  | .component, .encloses => [.disjoint, .touch, .component]
  | .component, .cover => [.disjoint]
  | .component, .equal => [.component]
  | .component, .component => [.component]
  | .component, .enclosed => [.component, .enclosed, .within]
  | .component, .within => [.within]
  | .enclosed, .disjoint => [.disjoint]
  | .enclosed, .touch => [.disjoint, .touch]
  | .enclosed, .composite => [.disjoint, .touch, .cross, .enclosed]
  | .enclosed, .encloses => [.disjoint, .touch, .cross, .component, .enclosed]
  | .enclosed, .cover => [.disjoint, .touch, .cross]
  | .enclosed, .equal => [.enclosed]
  | .enclosed, .component => [.enclosed]
  | .enclosed, .enclosed => [.enclosed, .within]
  | .enclosed, .within => [.within]
  | .within, .disjoint => [.disjoint]
  | .within, .touch => [.disjoint]
  | .within, .composite => [.disjoint, .cross, .within]
  | .within, .equal => [.within]
  | .within, .component => [.within]
  | .within, .enclosed => [.within]
  | .within, .within => [.within]
  | _, _ => [.disjoint, .touch, .cross, .component, .enclosed, .within]

/-- The possible relations of two linear geometries and an areal one; pairs which are not listed say nothing. -/
def Relation.composeLines : Relation → Relation → List Relation
  | .touch, .disjoint => [.disjoint, .touch, .cross]
  | .touch, .touch => [.disjoint, .touch, .cross, .component, .enclosed]
  | .touch, .component => [.touch, .cross, .component, .enclosed]
  | .touch, .enclosed => [.touch, .cross, .component, .enclosed, .within]
  | .touch, .within => [.cross, .enclosed, .within]
  | .cross, .disjoint => [.disjoint, .touch, .cross]
  | .cross, .touch => [.disjoint, .touch, .cross, .component, .enclosed]
  | .cross, .component => [.touch, .cross, .component, .enclosed]
  | .cross, .enclosed => [.touch, .cross, .component, .enclosed, .within]
  | .cross, .within => [.cross, .enclosed, .within]
  | .overlap, .disjoint => [.disjoint, .touch, .cross]
  | .overlap, .touch => [.disjoint, .touch, .cross, .component, .enclosed]
  | .overlap, .component => [.touch, .cross, .component, .enclosed]
  | .overlap, .enclosed => [.touch, .cross, .component, .enclosed, .within]
  | .overlap, .within => [.cross, .enclosed, .within]
  | .composite, .disjoint => [.disjoint, .touch, .cross]
  | .composite, .touch => [.touch, .cross]
  | .composite, .cross => [.cross]
  | .composite, .component => [.touch, .cross, .component, .enclosed]
  | .composite, .enclosed => [.cross, .enclosed]
  | .composite, .within => [.cross, .enclosed, .within]
  | .equal, .disjoint => [.disjoint]
  | .equal, .touch => [.touch]
  | .equal, .cross => [.cross]
  | .equal, .component => [.component]
  | .equal, .enclosed => [.enclosed]
  | .equal, .within => [.within]
  | .component, .disjoint => [.disjoint]
  | .component, .touch => [.disjoint, .touch, .component]
  | .component, .component => [.component]
  | .component, .enclosed => [.component, .enclosed, .within]
  | .component, .within => [.within]
  | _, _ => [.disjoint, .touch, .cross, .component, .enclosed, .within]

end Orient
