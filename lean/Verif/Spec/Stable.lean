import Verif.Spec.Geometry

/-! # Geometries with slightly moved vertices

Nothing here mentions the functions of the model. -/

namespace Orient

variable {K : Type} [Field K] [LinearOrder K]

/-- The coordinates of the points differ by less than `δ`. -/
def Point.Near (δ : K) (p q : Point K) : Prop := |q.x - p.x| < δ ∧ |q.y - p.y| < δ

/-- The endpoints are near to each other. -/
def Segment.Near (δ : K) (s t : Segment K) : Prop := s.start.Near δ t.start ∧ s.finish.Near δ t.finish

/-- Contours with the same number of vertices, each of which is near to the corresponding one. -/
def Contour.Near (δ : K) (c d : Contour K) : Prop := List.Forall₂ (Point.Near δ) c.vertices d.vertices

end Orient
