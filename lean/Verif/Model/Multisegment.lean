import Verif.Model.Segment
import Mathlib.Data.List.Sort

/-! Model of `/repo/orient/core/multisegment.py` (the sweep-based `relate_multisegment` of lines
144-157 is in `Verif.Model.Relate`). -/

namespace Orient.multisegment

variable {K : Type} [LinearOrder K]

/-- `/repo/orient/core/multisegment.py:21-28`. -/
def locatePoint (multisegment : Multisegment K) (point : Point K) (context : Context K) :
    Location :=
  if multisegment.segments.all
      (fun segment => Orient.segment.locatePoint segment point context = Location.exterior)
  then .exterior else .boundary

/-- The local variables of the loop of `/repo/orient/core/multisegment.py:33-40`. -/
structure LoopState (K : Type) where
  isSegmentSuperset : Bool
  hasNoTouch : Bool
  hasNoCross : Bool
  hasNoOverlap : Bool
  /-- `middle_touching_orientations`, a dict modelled as an association list -/
  middleTouchingOrientations : List (Point K × Orientation)
  components : List (Point K × Point K)
  start : Point K
  finish : Point K
  segmentEndpoints : Point K × Point K

/-- `x in pair` for a tuple of two points. -/
def inPair (p : Point K) (pair : Point K × Point K) : Bool :=
  decide (p = pair.1) || decide (p = pair.2)

/-- Python's `sorted` of four points. -/
def sortPoints (l : List (Point K)) : List (Point K) :=
  l.insertionSort (· ≤ ·)

/-- `/repo/orient/core/multisegment.py:135-141`; the tuple unpacking of line 138 always receives
four points, the other patterns are unreachable. -/
def subtractSegmentsOverlap (minuend subtrahend : SegmentEndpoints K) : SegmentEndpoints K :=
  match sortPoints [minuend.1, minuend.2, subtrahend.1, subtrahend.2] with
  | [leftStart, leftEnd, rightStart, rightEnd] =>
    if inPair leftStart minuend then (leftStart, leftEnd) else (rightStart, rightEnd)
  | _ => minuend

/-- The `TOUCH` branch of `/repo/orient/core/multisegment.py:69-95` (`has_no_overlap` holds). -/
def touchStep (context : Context K) (segment subSegment : Segment K) (s : LoopState K) :
    LoopState K :=
  let s := { s with hasNoTouch := false }
  if s.hasNoCross then
    let intersection := context.segmentsIntersection subSegment segment
    if intersection ≠ s.start ∧ intersection ≠ s.finish then
      let nonTouchedEndpoint :=
        if intersection = subSegment.finish then subSegment.start else subSegment.finish
      let orientation := context.angleOrientation s.start s.finish nonTouchedEndpoint
      match s.middleTouchingOrientations.lookup intersection with
      | none =>
        { s with middleTouchingOrientations :=
            s.middleTouchingOrientations ++ [(intersection, orientation)] }
      | some previousOrientation =>
        if orientation ≠ previousOrientation then { s with hasNoCross := false } else s
    else s
  else s

/-- One iteration of the loop of `/repo/orient/core/multisegment.py:41-97`;
`none` stands for the `return Relation.COMPONENT` of line 45. -/
def loopStep (context : Context K) (segment subSegment : Segment K) (s : LoopState K) :
    Option (LoopState K) :=
  let subSegmentEndpoints := (subSegment.start, subSegment.finish)
  let relation := Orient.segment.relateSegment subSegment segment context
  if relation = .component ∨ relation = .equal then
    none
  else if relation = .composite then
    let s := { s with hasNoOverlap := false }
    if inPair s.start subSegmentEndpoints then
      let start := max subSegmentEndpoints.1 subSegmentEndpoints.2
      some { s with start := start, segmentEndpoints := (start, s.finish) }
    else if inPair s.finish subSegmentEndpoints then
      let finish := min subSegmentEndpoints.1 subSegmentEndpoints.2
      some { s with finish := finish, segmentEndpoints := (s.start, finish) }
    else
      some { s with components := s.components ++ [toSortedPair subSegmentEndpoints] }
  else if relation = .overlap then
    let endpoints := subtractSegmentsOverlap s.segmentEndpoints subSegmentEndpoints
    some { s with
      isSegmentSuperset := false
      hasNoOverlap := false
      start := endpoints.1
      finish := endpoints.2
      segmentEndpoints := endpoints }
  else
    let s := { s with isSegmentSuperset := false }
    if s.hasNoOverlap then
      if relation = .touch then
        some (touchStep context segment subSegment s)
      else if s.hasNoCross ∧ relation = .cross then
        some { s with hasNoCross := false }
      else some s
    else some s

/-- The loop of `/repo/orient/core/multisegment.py:41-97`. -/
def loop (context : Context K) (segment : Segment K) :
    List (Segment K) → LoopState K → Option (LoopState K)
  | [], s => some s
  | subSegment :: rest, s =>
    match loopStep context segment subSegment s with
    | none => none
    | some s => loop context segment rest s

/-- The loop of `/repo/orient/core/multisegment.py:108-113`. -/
def componentsHull : List (Point K × Point K) → Point K → Point K → Point K × Point K
  | [], minStart, maxEnd => (minStart, maxEnd)
  | (componentStart, componentEnd) :: rest, minStart, maxEnd =>
    componentsHull rest
      (if minStart > componentStart then componentStart else minStart)
      (if maxEnd < componentEnd then componentEnd else maxEnd)

/-- `/repo/orient/core/multisegment.py:98-132`. -/
def conclude (s : LoopState K) : Relation :=
  if s.hasNoOverlap then
    if s.hasNoTouch && s.hasNoCross then .disjoint
    else if s.hasNoCross then .touch else .cross
  else
    match s.components with
    | (firstStart, firstEnd) :: rest =>
      let hull := componentsHull rest firstStart firstEnd
      let componentsStarts := s.components.map Prod.fst
      if hull.1 = s.start ∧ hull.2 = s.finish ∧
          s.components.all
            (fun component => decide (component.2 ∈ componentsStarts)
              || decide (component.2 = hull.2)) = true then
        if s.isSegmentSuperset then .equal else .component
      else if s.isSegmentSuperset then .composite else .overlap
    | [] =>
      if s.start = s.finish then
        if s.isSegmentSuperset then .equal else .component
      else if s.isSegmentSuperset then .composite else .overlap

/-- `/repo/orient/core/multisegment.py:33-40`: the state before the loop. -/
def initialState (segment : Segment K) : LoopState K where
  isSegmentSuperset := true
  hasNoTouch := true
  hasNoCross := true
  hasNoOverlap := true
  middleTouchingOrientations := []
  components := []
  start := if segment.start > segment.finish then segment.finish else segment.start
  finish := if segment.start > segment.finish then segment.start else segment.finish
  segmentEndpoints := (segment.start, segment.finish)

/-- `/repo/orient/core/multisegment.py:31-132`. -/
def relateSegment (multisegment : Multisegment K) (segment : Segment K) (context : Context K) :
    Relation :=
  match loop context segment multisegment.segments (initialState segment) with
  | none => .component
  | some s => conclude s

/-- `/repo/orient/core/multisegment.py:160-162`. -/
def toSegmentsEndpoints (multisegment : Multisegment K) : List (SegmentEndpoints K) :=
  multisegment.segments.map (fun segment => (segment.start, segment.finish))

end Orient.multisegment
