import Verif.Spec.Crossing

/-! What `segment_in_region` looks at if a segment has both endpoints on a contour which is listed clockwise. -/

namespace Orient

variable {K : Type} [Field K] [LinearOrder K]

/-- The contour goes around its interior clockwise. -/
def Contour.Clockwise (c : Contour K) : Prop := ∃ p v q, c.LeastCorner p v q ∧ cross p v q < 0

/-- The vertex `p`, not the last one, comes after `a`, and `w` is what is taken for the vertex after `p`: the one which is
as far from the third last vertex as `p` is from the first one, where the last vertex precedes the first one. -/
def Contour.Misread (c : Contour K) (p a w : Point K) : Prop :=
  ∃ i, i + 1 < c.vertices.length ∧ c.vertices[i]? = some p ∧ ⟨a, p⟩ ∈ c.edgeList ∧
    c.vertices[if i + 3 ≤ c.vertices.length then c.vertices.length - 3 - i else c.vertices.length - 1]? = some w

/-- The segment from its end `p` to its start `q` looks as if it went outwards. -/
def Contour.EndSeems (c : Contour K) (p q : Point K) : Prop :=
  (c.Clockwise ∧ p ∈ c.vertices → ∃ a w, c.Misread p a w ∧
    if cross a p w < 0 then cross p a q < 0 ∨ cross w p q < 0 else cross p a q < 0 ∧ cross w p q < 0) ∧
  (¬ (c.Clockwise ∧ p ∈ c.vertices) → c.Outwards p q)

/-- The segment from its start `p` to its end `q` looks as if it went outwards. -/
def Contour.StartSeems (c : Contour K) (p q : Point K) : Prop :=
  (c.Clockwise ∧ p ∈ c.vertices → ∃ a w, c.Misread p a w ∧
    cross a p w < 0 ∧ (cross p a q < 0 ∨ cross w p q < 0)) ∧
  (¬ (c.Clockwise ∧ p ∈ c.vertices) → c.Outwards p q ∧ ¬ c.NotLeft p)

/-- What is examined to tell a segment which touches a region from one which is enclosed, for contours listed in any
direction. -/
def Contour.SeemsOutside (c : Contour K) (s : Segment K) : Prop :=
  s.start ∈ c.exterior ∨ s.start ∈ c.pts ∧ (s.finish ∈ c.exterior ∨ s.finish ∈ c.pts ∧
    (c.EndSeems s.finish s.start ∨ c.StartSeems s.start s.finish))

end Orient
