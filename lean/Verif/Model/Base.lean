import Mathlib.Algebra.Order.Field.Basic
import Mathlib.Data.Prod.Lex
import Mathlib.Order.Basic

/-!
# Basic vocabulary of the model

Enumerations and geometries come from `ground.base` / `ground.hints`, which the repository imports
(`/repo/orient/planar.py:3-12`); the enumerations of the repository itself are in
`/repo/orient/core/enums.py`.  Coordinates are an arbitrary linearly ordered field `K`
(exact arithmetic: `int`/`Fraction` coordinates are the case `K = ℚ`).
Simplification: IEEE floating point is not modelled.
-/

namespace Orient

/-- Errors raised by the Python code; `outOfFuel` is an artefact of the model (a `while` loop that
has not finished within the fuel handed to it) and is proved unreachable. -/
inductive PyError
  | valueError
  | indexError
  | typeError
  | outOfFuel
deriving DecidableEq, Repr

/-- Python computations that may raise. -/
abbrev Py := Except PyError

/-- `ground.base.Orientation`, used throughout `/repo/orient/core`. -/
inductive Orientation
  | clockwise
  | collinear
  | counterclockwise
deriving DecidableEq, Repr

/-- `ground.base.Location`. -/
inductive Location
  | exterior
  | boundary
  | interior
deriving DecidableEq, Repr

/-- `ground.base.Relation`. -/
inductive Relation
  | disjoint
  | touch
  | cross
  | overlap
  | cover
  | encloses
  | composite
  | equal
  | component
  | enclosed
  | within
deriving DecidableEq, Repr

/-- `Relation.complement` of `ground.base`, used at `/repo/orient/core/polygon.py:158-160`:
the relation seen from the other operand. -/
def Relation.complement : Relation → Relation
  | .cover => .within
  | .within => .cover
  | .encloses => .enclosed
  | .enclosed => .encloses
  | .composite => .component
  | .component => .composite
  | r => r

/-- `/repo/orient/core/enums.py:5-10`. -/
inductive SegmentsRelation
  | disjoint
  | touch
  | cross
  | overlap
deriving DecidableEq, Repr

/-- The `IntEnum` values of `/repo/orient/core/enums.py:5-10`. -/
def SegmentsRelation.toNat : SegmentsRelation → Nat
  | .disjoint => 0
  | .touch => 1
  | .cross => 2
  | .overlap => 3

/-- Python's `max` of two `SegmentsRelation`s, as used at
`/repo/orient/core/events_queue.py:253-254,392-393` (the first maximal argument is returned). -/
def SegmentsRelation.max (a b : SegmentsRelation) : SegmentsRelation :=
  if a.toNat < b.toNat then b else a

/-- `/repo/orient/core/enums.py:13-17`. -/
inductive OverlapKind
  | none
  | sameOrientation
  | differentOrientation
deriving DecidableEq, Repr

/-- `ground.hints.Point`. -/
@[ext] structure Point (K : Type) where
  x : K
  y : K
deriving DecidableEq, Repr

/-- Points are compared lexicographically (`ground.hints.Point.__lt__`), e.g. at
`/repo/orient/core/event.py:112`. -/
instance {K : Type} [LinearOrder K] : LinearOrder (Point K) :=
  LinearOrder.lift' (fun p : Point K => toLex (p.x, p.y)) (by
    intro p q h
    have h' := toLex.injective h
    simp only [Prod.mk.injEq] at h'
    exact Point.ext h'.1 h'.2)

/-- `ground.hints.Segment`. -/
@[ext] structure Segment (K : Type) where
  start : Point K
  finish : Point K
deriving DecidableEq, Repr

/-- `ground.hints.Contour`; `orient.hints.Region` is the same type
(`/repo/orient/core/hints.py:10`). -/
structure Contour (K : Type) where
  vertices : List (Point K)
deriving DecidableEq, Repr

/-- `/repo/orient/core/hints.py:10`. -/
abbrev Region := Contour

/-- `/repo/orient/core/hints.py:11`. -/
abbrev Multiregion (K : Type) := List (Region K)

/-- `ground.hints.Multisegment`. -/
structure Multisegment (K : Type) where
  segments : List (Segment K)
deriving DecidableEq, Repr

/-- `ground.hints.Polygon`. -/
structure Polygon (K : Type) where
  border : Contour K
  holes : List (Contour K)
deriving DecidableEq, Repr

/-- `ground.hints.Multipolygon`. -/
structure Multipolygon (K : Type) where
  polygons : List (Polygon K)
deriving DecidableEq, Repr

/-- `ground.hints.Box`, used by `/repo/orient/core/box.py`. -/
structure Box (K : Type) where
  minX : K
  maxX : K
  minY : K
  maxY : K
deriving DecidableEq, Repr

/-- `/repo/orient/core/hints.py:12`. -/
abbrev SegmentEndpoints (K : Type) := Point K × Point K

/-- The part of `ground.base.Context` that the repository calls.  A context is a parameter of every
modelled function, exactly as in the code; what is assumed of it is stated in
`Verif.Spec.Context`. -/
structure Context (K : Type) where
  /-- `angle_orientation(vertex, first_ray_point, second_ray_point)` -/
  angleOrientation : Point K → Point K → Point K → Orientation
  /-- `segment_contains_point(segment, point)` -/
  segmentContainsPoint : Segment K → Point K → Bool
  /-- `segments_relation(test, goal)` -/
  segmentsRelation : Segment K → Segment K → Relation
  /-- `segments_intersection(first, second)` -/
  segmentsIntersection : Segment K → Segment K → Point K
  /-- `dot_product(first_start, first_end, second_start, second_end)` -/
  dotProduct : Point K → Point K → Point K → Point K → K
  /-- `points_squared_distance(first, second)` -/
  pointsSquaredDistance : Point K → Point K → K
  /-- `contour_segments(contour)` -/
  contourSegments : Contour K → List (Segment K)
  /-- `segment_box(segment)` -/
  segmentBox : Segment K → Box K
  /-- `segments_box(segments)` -/
  segmentsBox : List (Segment K) → Box K
  /-- `contour_box(contour)` -/
  contourBox : Contour K → Box K
  /-- `contours_box(contours)` -/
  contoursBox : List (Contour K) → Box K
  /-- `polygon_box(polygon)` -/
  polygonBox : Polygon K → Box K
  /-- `polygons_box(polygons)` -/
  polygonsBox : List (Polygon K) → Box K

/-- Python sequence indexing `l[i]`: negative indices count from the end, anything else out of
range raises `IndexError`. -/
def pyGet {α : Type} (l : List α) (i : Int) : Py α :=
  match l[(if i < 0 then i + l.length else i).toNat]? with
  | some a => if (if i < 0 then i + (l.length : Int) else i) < 0 then .error .indexError else .ok a
  | none => .error .indexError

/-- `/repo/orient/core/utils.py:10-12`: at most one group of consecutive equal values. -/
def allEqual {α : Type} [DecidableEq α] : List α → Bool
  | [] => true
  | a :: l => l.all (fun b => a = b)

/-- `/repo/orient/core/utils.py:18-20`. -/
def toSortedPair {α : Type} [LT α] [DecidableLT α] (pair : α × α) : α × α :=
  if pair.1 < pair.2 then pair else (pair.2, pair.1)

/-- `/repo/orient/core/box.py:4-6`. -/
def box.disjointWith {K : Type} [LinearOrder K] (goal test : Box K) : Bool :=
  decide (goal.maxX < test.minX) || decide (test.maxX < goal.minX)
    || decide (goal.maxY < test.minY) || decide (test.maxY < goal.minY)

end Orient
