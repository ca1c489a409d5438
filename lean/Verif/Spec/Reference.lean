import Verif.Model.Contour
import Verif.Spec.Geometry

/-!
A reference context: exact implementations of the functions of `ground.base.Context` which the
repository calls.  It is used to run the model on examples and, in `Verif.Lemmas.Reference`, to show that
the contract assumed of a context can be met.
-/

namespace Orient.reference

variable {K : Type} [Field K] [LinearOrder K]

/-- The sign of the cross product as an orientation. -/
def angleOrientation (v a b : Point K) : Orientation :=
  if cross v a b > 0 then .counterclockwise else if cross v a b < 0 then .clockwise else .collinear

/-- A point lies on a segment iff it is collinear with its endpoints and inside their box. -/
def segmentContainsPoint (s : Segment K) (p : Point K) : Bool :=
  decide (cross s.start s.finish p = 0)
    && decide (min s.start.x s.finish.x ≤ p.x) && decide (p.x ≤ max s.start.x s.finish.x)
    && decide (min s.start.y s.finish.y ≤ p.y) && decide (p.y ≤ max s.start.y s.finish.y)

/-- Segments which do not lie on a line. -/
def transversalRelation (t g : Segment K) : Relation :=
  if cross t.start t.finish g.start * cross t.start t.finish g.finish < 0
      ∧ cross g.start g.finish t.start * cross g.start g.finish t.finish < 0 then .cross
  else if segmentContainsPoint t g.start || segmentContainsPoint t g.finish
      || segmentContainsPoint g t.start || segmentContainsPoint g t.finish then .touch
  else .disjoint

/-- Segments which lie on a line, compared as intervals in the lexicographic order. -/
def collinearRelation (t g : Segment K) : Relation :=
  let a := min t.start t.finish
  let b := max t.start t.finish
  let c := min g.start g.finish
  let d := max g.start g.finish
  if a = c ∧ b = d then .equal
  else if c ≤ a ∧ b ≤ d then .component
  else if a ≤ c ∧ d ≤ b then .composite
  else if max a c < min b d then .overlap
  else if max a c = min b d then .touch
  else .disjoint

/-- `segments_relation(test, goal)`. -/
def segmentsRelation (t g : Segment K) : Relation :=
  if cross t.start t.finish g.start = 0 ∧ cross t.start t.finish g.finish = 0 then
    collinearRelation t g
  else transversalRelation t g

/-- `segments_intersection(first, second)` of segments with a single common point. -/
def segmentsIntersection (t g : Segment K) : Point K :=
  if cross t.start t.finish g.start = 0 ∧ cross t.start t.finish g.finish = 0 then
    max (min t.start t.finish) (min g.start g.finish)
  else
    let d := (t.finish.x - t.start.x) * (g.finish.y - g.start.y)
      - (t.finish.y - t.start.y) * (g.finish.x - g.start.x)
    let l := ((g.start.x - t.start.x) * (g.finish.y - g.start.y)
      - (g.start.y - t.start.y) * (g.finish.x - g.start.x)) / d
    ⟨t.start.x + l * (t.finish.x - t.start.x), t.start.y + l * (t.finish.y - t.start.y)⟩

/-- The bounding box of a list of points (a fixed box for the empty list). -/
def pointsBox : List (Point K) → Box K
  | [] => ⟨0, 0, 0, 0⟩
  | p :: rest =>
    rest.foldl (fun b q => ⟨min b.minX q.x, max b.maxX q.x, min b.minY q.y, max b.maxY q.y⟩)
      ⟨p.x, p.x, p.y, p.y⟩

/-- The endpoints of a list of segments. -/
def endpoints (l : List (Segment K)) : List (Point K) := l.flatMap (fun s => [s.start, s.finish])

/-- The reference context. -/
def context : Context K where
  angleOrientation := angleOrientation
  segmentContainsPoint := segmentContainsPoint
  segmentsRelation := segmentsRelation
  segmentsIntersection := segmentsIntersection
  dotProduct a b c d := (b.x - a.x) * (d.x - c.x) + (b.y - a.y) * (d.y - c.y)
  pointsSquaredDistance a b := (b.x - a.x) * (b.x - a.x) + (b.y - a.y) * (b.y - a.y)
  contourSegments c := (contour.edges c.vertices).map (fun e => ⟨e.1, e.2⟩)
  segmentBox s := pointsBox (endpoints [s])
  segmentsBox l := pointsBox (endpoints l)
  contourBox c := pointsBox c.vertices
  contoursBox l := pointsBox (l.flatMap Contour.vertices)
  polygonBox p := pointsBox p.border.vertices
  polygonsBox l := pointsBox (l.flatMap (fun p => p.border.vertices))

end Orient.reference
