import Verif.Spec.Context

/-!
# Contexts which are exact where it matters

Predicates and constructions of a context may be wrong somewhere, as those of floating point arithmetic are; the
contract asks only for the points and segments which can occur for given operands.
-/

namespace Orient

variable {K : Type} [Field K] [LinearOrder K]

/-- The endpoints of the segments and the points which are the only common point of two of them. -/
def nodes (l : List (Segment K)) : Set (Point K) :=
  {p | (∃ s ∈ l, s.IsEndpoint p) ∨ ∃ s ∈ l, ∃ t ∈ l, s.pts ∩ t.pts = {p}}

/-- The parts of the segments between points of `N`. -/
def pieces (N : Set (Point K)) (l : List (Segment K)) : Set (Segment K) :=
  {s | s.Nondegenerate ∧ s.start ∈ N ∧ s.finish ∈ N ∧ ∃ t ∈ l, s.pts ⊆ t.pts}

/-- A context which is exact for points of `N` and parts of the segments of `l` between points of `N`.  Functions
which do not calculate (edges of contours and bounding boxes) are required to be right. -/
structure Context.ExactOn (c : Context K) (N : Set (Point K)) (l : List (Segment K)) : Prop where
  counterclockwise : ∀ v ∈ N, ∀ a ∈ N, ∀ b ∈ N,
    (c.angleOrientation v a b = .counterclockwise ↔ 0 < cross v a b)
  clockwise : ∀ v ∈ N, ∀ a ∈ N, ∀ b ∈ N, (c.angleOrientation v a b = .clockwise ↔ cross v a b < 0)
  contains : ∀ s ∈ l, ∀ p ∈ N, (c.segmentContainsPoint s p = true ↔ p ∈ s.pts)
  relation : ∀ t ∈ pieces N l, ∀ g ∈ pieces N l, SegmentsRel t g (c.segmentsRelation t g)
  intersection : ∀ t ∈ pieces N l, ∀ g ∈ pieces N l,
    c.segmentsRelation t g = .touch ∨ c.segmentsRelation t g = .cross →
    c.segmentsIntersection t g ∈ t.pts ∩ g.pts
  contourSegments : ∀ k, c.contourSegments k = k.edgeList
  segmentBox : ∀ s, IsBoxOf (c.segmentBox s) s.pts
  segmentsBox : ∀ l, l ≠ [] → IsBoxOf (c.segmentsBox l) (segsPts l)
  contourBox : ∀ k : Contour K, k.vertices ≠ [] → IsBoxOf (c.contourBox k) k.pts
  contoursBox : ∀ l : List (Contour K), l ≠ [] → (∀ k ∈ l, k.vertices ≠ []) →
    IsBoxOf (c.contoursBox l) {p | ∃ k ∈ l, p ∈ k.pts}
  polygonBox : ∀ g : Polygon K, g.border.vertices ≠ [] → IsBoxOf (c.polygonBox g) g.border.pts
  polygonsBox : ∀ l : List (Polygon K), l ≠ [] → (∀ g ∈ l, g.border.vertices ≠ []) →
    IsBoxOf (c.polygonsBox l) {p | ∃ g ∈ l, p ∈ g.border.pts}

/-- Lengths and scalar products, which only the functions relating two multisegments or a multisegment and a contour
use, are exact for points of `N`. -/
structure Context.MeasuresOn (c : Context K) (N : Set (Point K)) : Prop where
  dotProduct : ∀ a ∈ N, ∀ b ∈ N, ∀ p ∈ N, ∀ q ∈ N, c.dotProduct a b p q
    = (b.x - a.x) * (q.x - p.x) + (b.y - a.y) * (q.y - p.y)
  pointsSquaredDistance : ∀ a ∈ N, ∀ b ∈ N, c.pointsSquaredDistance a b
    = (b.x - a.x) * (b.x - a.x) + (b.y - a.y) * (b.y - a.y)

/-- A context which rounds the intersection points. -/
def Context.rounding (c : Context K) (round : Point K → Point K) : Context K :=
  { c with segmentsIntersection := fun s t => round (c.segmentsIntersection s t) }

end Orient
