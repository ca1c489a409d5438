import Verif.Spec.Geometry

/-! # Convex contours -/

namespace Orient

variable {K : Type} [Field K] [LinearOrder K]

/-- All vertices are on the left of every edge, or on its line. -/
def Contour.ConvexLeft (c : Contour K) : Prop :=
  ∀ e ∈ c.edgeList, ∀ v ∈ c.vertices, 0 ≤ cross e.start e.finish v

/-- All vertices are on the right of every edge, or on its line. -/
def Contour.ConvexRight (c : Contour K) : Prop :=
  ∀ e ∈ c.edgeList, ∀ v ∈ c.vertices, cross e.start e.finish v ≤ 0

/-- Every edge has all vertices on the same side, the same one for all edges. -/
def Contour.Convex (c : Contour K) : Prop := c.ConvexLeft ∨ c.ConvexRight

/-- A linear function of the coordinates; the points where it is zero form a line unless `a = b = 0`. -/
def linear (a b c : K) (p : Point K) : K := a * p.x + b * p.y + c

/-- No point of one list is on the same side of the line of the segment as a point of the other. -/
def Segment.Parts (e : Segment K) (l l' : List (Point K)) : Prop :=
  ∀ p ∈ l, ∀ q ∈ l', cross e.start e.finish p * cross e.start e.finish q ≤ 0

/-- No point of the list is on the line of the segment. -/
def Segment.Clear (e : Segment K) (l : List (Point K)) : Prop := ∀ p ∈ l, cross e.start e.finish p ≠ 0

/-- A segment beside a convex region: all vertices are on one side of the segment, or an edge separates it. -/
def Segment.LiesBeside (s : Segment K) (c : Contour K) : Prop :=
  (∀ v ∈ c.vertices, ∀ w ∈ c.vertices, 0 ≤ cross s.start s.finish v * cross s.start s.finish w) ∨
  ∃ e ∈ c.edgeList, e.Parts c.vertices [s.start, s.finish]

/-- The same with no vertices on the line of the segment or endpoints on the line of the edge. -/
def Segment.LiesAway (s : Segment K) (c : Contour K) : Prop :=
  (∀ v ∈ c.vertices, ∀ w ∈ c.vertices, 0 < cross s.start s.finish v * cross s.start s.finish w) ∨
  ∃ e ∈ c.edgeList, e.Parts c.vertices [s.start, s.finish] ∧ e.Clear [s.start, s.finish]

end Orient
