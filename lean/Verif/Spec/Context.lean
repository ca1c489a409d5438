import Verif.Spec.Geometry

/-!
# The contract of a geometric context

What is assumed of the functions of `ground.base.Context`, whose source is not part of the repository.
-/

namespace Orient

variable {K : Type} [Field K] [LinearOrder K]

/-- A context whose functions are exact.  `relation` and `intersection` are only required for
non-degenerate segments, boxes only for non-empty geometries. -/
structure Context.Exact (c : Context K) : Prop where
  counterclockwise : ∀ v a b, c.angleOrientation v a b = .counterclockwise ↔ 0 < cross v a b
  clockwise : ∀ v a b, c.angleOrientation v a b = .clockwise ↔ cross v a b < 0
  contains : ∀ s p, c.segmentContainsPoint s p = true ↔ p ∈ s.pts
  relation : ∀ t g : Segment K, t.Nondegenerate → g.Nondegenerate →
    SegmentsRel t g (c.segmentsRelation t g)
  intersection : ∀ t g : Segment K, t.Nondegenerate → g.Nondegenerate →
    c.segmentsRelation t g = .touch ∨ c.segmentsRelation t g = .cross →
    c.segmentsIntersection t g ∈ t.pts ∩ g.pts
  dotProduct : ∀ a b p q, c.dotProduct a b p q
    = (b.x - a.x) * (q.x - p.x) + (b.y - a.y) * (q.y - p.y)
  pointsSquaredDistance : ∀ a b, c.pointsSquaredDistance a b
    = (b.x - a.x) * (b.x - a.x) + (b.y - a.y) * (b.y - a.y)
  contourSegments : ∀ k, c.contourSegments k = k.edgeList
  segmentBox : ∀ s, IsBoxOf (c.segmentBox s) s.pts
  segmentsBox : ∀ l, l ≠ [] → IsBoxOf (c.segmentsBox l) (segsPts l)
  contourBox : ∀ k : Contour K, k.vertices ≠ [] → IsBoxOf (c.contourBox k) k.pts
  contoursBox : ∀ l : List (Contour K), l ≠ [] → (∀ k ∈ l, k.vertices ≠ []) →
    IsBoxOf (c.contoursBox l) {p | ∃ k ∈ l, p ∈ k.pts}
  polygonBox : ∀ g : Polygon K, g.border.vertices ≠ [] → IsBoxOf (c.polygonBox g) g.border.pts
  polygonsBox : ∀ l : List (Polygon K), l ≠ [] → (∀ g ∈ l, g.border.vertices ≠ []) →
    IsBoxOf (c.polygonsBox l) {p | ∃ g ∈ l, p ∈ g.border.pts}

end Orient
