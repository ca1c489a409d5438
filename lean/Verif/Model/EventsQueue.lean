import Verif.Model.SweepLine

/-!
Model of `/repo/orient/core/events_queue.py`.

`prioq.PriorityQueue` is modelled by an unordered list from which the element preferred by the key
comparison is taken.  Simplification: if the comparison is not a strict total order on the queued
events, which of several candidates is popped depends on the layout of the binary heap, which is not
modelled.
-/

namespace Orient

variable {K : Type}

namespace eventsQueue

section key

variable [LinearOrder K]

/-- `EventsQueueKey.__lt__`, `/repo/orient/core/events_queue.py:341-368`. -/
def keyLt (context : Context K) (s : State K) (event otherEvent : Ev) : Bool :=
  let start := s.evStart event
  let otherStart := s.evStart otherEvent
  if start.x ≠ otherStart.x then decide (start.x < otherStart.x)
  else if start.y ≠ otherStart.y then decide (start.y < otherStart.y)
  else if event.isLeft ≠ otherEvent.isLeft then otherEvent.isLeft
  else
    let otherEndOrientation := context.angleOrientation (s.evStart event) (s.evEnd event)
      (s.evEnd otherEvent)
    if otherEndOrientation = .collinear then s.evFromTest otherEvent
    else
      decide (otherEndOrientation
        = if event.isLeft then Orientation.counterclockwise else Orientation.clockwise)

/-- The element of a non-empty list preferred by the key (the earlier one unless a later one is
less). -/
def least (context : Context K) (s : State K) : Ev → List Ev → Ev
  | best, [] => best
  | best, event :: rest =>
    least context s (if keyLt context s event best then event else best) rest

/-- `PriorityQueue.peek`, `/repo/orient/core/events_queue.py:41-42`. -/
def peek? (context : Context K) (s : State K) : Option Ev :=
  match s.queue with
  | [] => none
  | event :: rest => some (least context s event rest)

end key

/-- What a consumer of `sweep` can see of an emitted left event at the moment it is emitted. -/
structure Emitted (K : Type) where
  event : Nat
  start : Point K
  finish : Point K
  fromTest : Bool
  relation : SegmentsRelation
  overlapKind : OverlapKind
  interiorToLeft : Bool
  otherInteriorToLeft : Bool

namespace Emitted

/-- `CompoundLeftEvent.inside`, `/repo/orient/core/event.py:217-224`. -/
def inside (e : Emitted K) : Bool := e.otherInteriorToLeft && decide (e.overlapKind = .none)

/-- `CompoundLeftEvent.outside`, `/repo/orient/core/event.py:248-254`. -/
def outside (e : Emitted K) : Bool := !e.otherInteriorToLeft && decide (e.overlapKind = .none)

/-- `CompoundLeftEvent.is_common_polyline_component`, `/repo/orient/core/event.py:226-231`. -/
def isCommonPolylineComponent (e : Emitted K) : Bool :=
  decide (e.overlapKind = .differentOrientation)

/-- `CompoundLeftEvent.is_common_region_boundary`, `/repo/orient/core/event.py:233-238`. -/
def isCommonRegionBoundary (e : Emitted K) : Bool := decide (e.overlapKind = .sameOrientation)

end Emitted

/-- The view of a left event in the current state. -/
def emit (s : State K) (i : Nat) : Emitted K :=
  let e := s.lefts i
  ⟨i, e.start, s.leftEnd i, e.fromTest, e.relation, e.overlapKind, e.interiorToLeft,
    e.otherInteriorToLeft⟩

section

variable [DecidableEq K]

/-- One step of the inner loop of `complete_events_relations`
(`/repo/orient/core/events_queue.py:377-393`). -/
def completePair (s : State K) (first second : Ev) : State K :=
  let firstLeft := s.leftOf first
  let secondLeft := s.leftOf second
  if (s.lefts secondLeft).fromTest = (s.lefts firstLeft).fromTest then s
  else if (s.lefts firstLeft).start = (s.lefts secondLeft).start
      ∧ s.leftEnd firstLeft = s.leftEnd secondLeft then
    (s.setRelation firstLeft .overlap).setRelation secondLeft .overlap
  else
    let relation : SegmentsRelation :=
      if s.evStart first = s.evOriginalStart first ∨ s.evStart second = s.evOriginalStart second
      then .touch else .cross
    (s.raiseRelation firstLeft relation).raiseRelation secondLeft relation

/-- `complete_events_relations`, `/repo/orient/core/events_queue.py:371-394`. -/
def completeEventsRelations (s : State K) : List Ev → List (Emitted K) × State K
  | [] => ([], s)
  | first :: rest =>
    let s := rest.foldl (fun s second => completePair s first second) s
    let tail := completeEventsRelations s rest
    (emit s (s.leftOf first) :: tail.1, tail.2)

end

section linear

variable [Field K] [LinearOrder K]

/-- `_to_signed_point_event_squared_cosine`, `/repo/orient/core/events_queue.py:324-330`. -/
def signedSquaredCosine (context : Context K) (s : State K) (point : Point K) (event : Ev) : K :=
  let dotProduct := context.dotProduct (s.evStart event) point (s.evStart event) (s.evEnd event)
  (2 * (if dotProduct > 0 then 1 else 0) - 1) * (dotProduct * dotProduct)
    / context.pointsSquaredDistance (s.evStart event) (s.evEnd event)

/-- Python's `min(events, key=key)` of a non-empty list: the first element with the least key. -/
def minBy (key : Ev → K) : Ev → List Ev → Ev
  | best, [] => best
  | best, event :: rest => minBy key (if key event < key best then event else best) rest

/-- `_point_in_angle`, `/repo/orient/core/events_queue.py:303-322`; `Orientation.COLLINEAR` is the
only falsy orientation, hence the `or` of lines 320-322. -/
def pointInAngle (context : Context K) (point vertex firstRayPoint secondRayPoint : Point K)
    (angleOrientation : Orientation) : Bool :=
  let firstHalfOrientation := context.angleOrientation vertex firstRayPoint point
  let secondHalfOrientation := context.angleOrientation secondRayPoint vertex point
  if firstHalfOrientation = .collinear then decide (secondHalfOrientation = angleOrientation)
  else if secondHalfOrientation = .collinear then
    decide (firstHalfOrientation = angleOrientation)
  else
    decide (firstHalfOrientation = secondHalfOrientation)
      && decide (secondHalfOrientation
        = if angleOrientation = .collinear then .counterclockwise else angleOrientation)

/-- `detect_crossing_angles`, `/repo/orient/core/events_queue.py:222-254`. -/
def detectCrossingAngles (context : Context K) (s : State K) (sameStartEvents : List Ev) :
    State K :=
  let testsCount := (sameStartEvents.filter (fun event => s.evFromTest event)).length
  if sameStartEvents.length < 4
      ∨ ¬ (1 < testsCount ∧ testsCount < sameStartEvents.length - 1) then s
  else
    let fromTestEvents := sameStartEvents.filter (fun event => s.evFromTest event)
    let fromGoalEvents := sameStartEvents.filter (fun event => !s.evFromTest event)
    match sameStartEvents, fromGoalEvents with
    | firstEvent :: _, goalEvent :: goalEvents =>
      let start := s.evStart firstEvent
      let baseEvent := minBy (signedSquaredCosine context s (s.evEnd goalEvent)) goalEvent goalEvents
      let baseEnd := s.evEnd baseEvent
      let largestAngleEvent := minBy (signedSquaredCosine context s baseEnd) goalEvent goalEvents
      let largestAngleEnd := s.evEnd largestAngleEvent
      let baseOrientation := context.angleOrientation start baseEnd largestAngleEnd
      if allEqual (fromTestEvents.map (fun testEvent =>
          pointInAngle context (s.evEnd testEvent) start baseEnd largestAngleEnd baseOrientation))
      then s
      else sameStartEvents.foldl (fun s event => s.raiseRelation (s.leftOf event) .cross) s
    | _, _ => s

end linear

section detect

variable [LinearOrder K]

/-- The divisions made for overlapping segments of different geometries
(`/repo/orient/core/events_queue.py:130-163` and `274-301`), without the flags of the compound
queue. -/
def divideOverlapping (context : Context K) (s : State K) (belowEvent event : Nat) : State K :=
  let startsEqual := decide ((s.lefts belowEvent).start = (s.lefts event).start)
  let endsEqual := decide (s.leftEnd belowEvent = s.leftEnd event)
  let eventFirst := startsEqual || keyLt context s (.left event) (.left belowEvent)
  let startMin := if eventFirst then event else belowEvent
  let startMax := if eventFirst then belowEvent else event
  let eventRight := (s.lefts event).right
  let belowRight := (s.lefts belowEvent).right
  let eventEndFirst := endsEqual || keyLt context s (.right eventRight) (.right belowRight)
  let endMin := if eventEndFirst then eventRight else belowRight
  let endMax := if eventEndFirst then belowRight else eventRight
  let endMinStart := (s.rights endMin).start
  let startMaxStart := (s.lefts startMax).start
  let endMaxLeft := (s.rights endMax).left
  if startsEqual then
    if endsEqual then s else s.divide endMaxLeft endMinStart
  else if endsEqual then s.divide startMin startMaxStart
  else if startMin = endMaxLeft then
    (s.divide startMin endMinStart).divide startMin startMaxStart
  else
    (s.divide startMax endMinStart).divide startMin startMaxStart

/-- The divisions made for segments with a single common point
(`/repo/orient/core/events_queue.py:120-124` and `264-268`). -/
def divideAt (s : State K) (belowEvent event : Nat) (point : Point K) : State K :=
  let s₁ :=
    if point ≠ (s.lefts belowEvent).start ∧ point ≠ s.leftEnd belowEvent
    then s.divide belowEvent point else s
  if point ≠ (s₁.lefts event).start ∧ point ≠ s₁.leftEnd event then s₁.divide event point else s₁

/-- `LinearEventsQueue.detect_intersection`, `/repo/orient/core/events_queue.py:256-301`. -/
def detectIntersectionLinear (context : Context K) (s : State K) (belowEvent event : Nat) :
    Py (State K) :=
  let relation := context.segmentsRelation (s.seg belowEvent) (s.seg event)
  if relation = .touch ∨ relation = .cross then
    .ok (divideAt s belowEvent event
      (context.segmentsIntersection (s.seg belowEvent) (s.seg event)))
  else if relation ≠ .disjoint then
    if (s.lefts event).fromTest = (s.lefts belowEvent).fromTest then .error .valueError
    else .ok (divideOverlapping context s belowEvent event)
  else .ok s

/-- `CompoundEventsQueue.detect_intersection`, `/repo/orient/core/events_queue.py:111-164`. -/
def detectIntersectionCompound (context : Context K) (s : State K) (belowEvent event : Nat) :
    Py (State K × Bool) :=
  let relation := context.segmentsRelation (s.seg belowEvent) (s.seg event)
  if relation = .touch ∨ relation = .cross then
    .ok (divideAt s belowEvent event
      (context.segmentsIntersection (s.seg belowEvent) (s.seg event)), false)
  else if relation ≠ .disjoint then
    if (s.lefts event).fromTest = (s.lefts belowEvent).fromTest then .error .valueError
    else if (s.lefts belowEvent).start = (s.lefts event).start then
      let overlapKind : OverlapKind :=
        if (s.lefts event).interiorToLeft = (s.lefts belowEvent).interiorToLeft
        then .sameOrientation else .differentOrientation
      let s := (s.setLeft belowEvent (fun e => { e with overlapKind := overlapKind })).setLeft event
        (fun e => { e with overlapKind := overlapKind })
      .ok (divideOverlapping context s belowEvent event, true)
    else .ok (divideOverlapping context s belowEvent event, false)
  else .ok (s, false)

/-- `CompoundEventsQueue.compute_position`, `/repo/orient/core/events_queue.py:166-173`. -/
def computePosition (s : State K) (belowEvent : Option Nat) (event : Nat) : State K :=
  match belowEvent with
  | none => s
  | some belowEvent =>
    let value :=
      if (s.lefts event).fromTest = (s.lefts belowEvent).fromTest
      then (s.lefts belowEvent).otherInteriorToLeft
      else (s.lefts belowEvent).interiorToLeft
    s.setLeft event (fun e => { e with otherInteriorToLeft := value })

end detect

section sweep

variable [Field K] [LinearOrder K]

/-- The body of the loop of `LinearEventsQueue.sweep` after the event has been popped and grouped
(`/repo/orient/core/events_queue.py:203-218`). -/
def handleLinear (context : Context K) (s : State K) (line : List Nat) (event : Ev) :
    Py (State K × List Nat) := do
  match event with
  | .left event =>
    let line := sweepLine.add context s event line
    let aboveEvent := sweepLine.above context s event line
    let belowEvent := sweepLine.below context s event line
    let s ← match aboveEvent with
      | some aboveEvent => detectIntersectionLinear context s event aboveEvent
      | none => .ok s
    let s ← match belowEvent with
      | some belowEvent => detectIntersectionLinear context s belowEvent event
      | none => .ok s
    return (s, line)
  | .right r =>
    let event := (s.rights r).left
    if sweepLine.contains context s event line then
      let aboveEvent := sweepLine.above context s event line
      let belowEvent := sweepLine.below context s event line
      let line := sweepLine.remove context s event line
      match aboveEvent, belowEvent with
      | some aboveEvent, some belowEvent =>
        let s ← detectIntersectionLinear context s belowEvent aboveEvent
        return (s, line)
      | _, _ => return (s, line)
    else return (s, line)

/-- `/repo/orient/core/events_queue.py:94-96`. -/
def checkAbove (context : Context K) (s : State K) (event : Nat) (aboveEvent : Option Nat) :
    Py (State K) :=
  match aboveEvent with
  | none => .ok s
  | some aboveEvent => do
    let (s, overlap) ← detectIntersectionCompound context s event aboveEvent
    return if overlap then computePosition s (some event) aboveEvent else s

/-- `/repo/orient/core/events_queue.py:97-100`. -/
def checkBelow (context : Context K) (s : State K) (line : List Nat) (belowEvent : Option Nat)
    (event : Nat) : Py (State K) :=
  match belowEvent with
  | none => .ok s
  | some belowEvent => do
    let (s, overlap) ← detectIntersectionCompound context s belowEvent event
    return if overlap
      then computePosition s (sweepLine.below context s belowEvent line) belowEvent else s

/-- The body of the loop of `CompoundEventsQueue.sweep` after the event has been popped and grouped
(`/repo/orient/core/events_queue.py:89-108`). -/
def handleCompound (context : Context K) (s : State K) (line : List Nat) (event : Ev) :
    Py (State K × List Nat) := do
  match event with
  | .left event =>
    let line := sweepLine.add context s event line
    let aboveEvent := sweepLine.above context s event line
    let belowEvent := sweepLine.below context s event line
    let s := computePosition s belowEvent event
    let s ← checkAbove context s event aboveEvent
    let s ← checkBelow context s line belowEvent event
    return (s, line)
  | .right r =>
    let event := (s.rights r).left
    if sweepLine.contains context s event line then
      let aboveEvent := sweepLine.above context s event line
      let belowEvent := sweepLine.below context s event line
      let line := sweepLine.remove context s event line
      match aboveEvent, belowEvent with
      | some aboveEvent, some belowEvent =>
        let (s, _) ← detectIntersectionCompound context s belowEvent aboveEvent
        return (s, line)
      | _, _ => return (s, line)
    else return (s, line)

/-- What closing a group of events with a common start does: `complete_events_relations`, preceded by
`detect_crossing_angles` in the linear queue (`/repo/orient/core/events_queue.py:87,109,200-201,219-220`). -/
def closeGroup (linear : Bool) (context : Context K) (s : State K) (group : List Ev) :
    List (Emitted K) × State K :=
  completeEventsRelations (if linear then detectCrossingAngles context s group else s) group

/-- The loops of `LinearEventsQueue.sweep` (`/repo/orient/core/events_queue.py:186-220`) and
`CompoundEventsQueue.sweep` (`/repo/orient/core/events_queue.py:73-109`).  The generator is modelled
by the sequence of events it emits together with how it ends: normally in a final state, or with an
exception; a consumer that stops early sees a prefix of the sequence and no exception.  `fuel` bounds
the number of iterations of the `while` loop (`outOfFuel` is proved unreachable). -/
def sweepLoop (linear : Bool) (context : Context K) (stopX : K) :
    Nat → State K → List Nat → Option (Point K) → List Ev → List (Emitted K) × Py (State K)
  | 0, _, _, _, _ => ([], .error .outOfFuel)
  | fuel + 1, s, line, start, group =>
    let finish : List (Emitted K) × Py (State K) :=
      let closed := closeGroup linear context s group
      (closed.1, .ok closed.2)
    match peek? context s with
    | none => finish
    | some event =>
      if (s.evStart event).x > stopX then finish
      else
        let s := { s with queue := s.queue.erase event }
        let sameStart := decide (some (s.evStart event) = start)
        let closed := if sameStart then ([], s) else closeGroup linear context s group
        let group := if sameStart then group ++ [event] else [event]
        let start := if sameStart then start else some (closed.2.evStart event)
        match (if linear then handleLinear context closed.2 line event
            else handleCompound context closed.2 line event) with
        | .error error => (closed.1, .error error)
        | .ok (s, line) =>
          let rest := sweepLoop linear context stopX fuel s line start group
          (closed.1 ++ rest.1, rest.2)

/-- Enough iterations for the registered segments: `2 n` events are queued for `n` segments, and
each of them can be divided at most once at each of at most `2 n + n ^ 2` endpoints and crossings,
every division queueing two more events. -/
def enoughFuel (s : State K) : Nat :=
  let n := s.nextLeft
  2 * n + 2 * (n * (2 * n + n * n)) + 1

/-- `sweep`, `/repo/orient/core/events_queue.py:73-109,186-220`. -/
def sweep (linear : Bool) (context : Context K) (stopX : K) (s : State K) :
    List (Emitted K) × Py (State K) :=
  sweepLoop linear context stopX (enoughFuel s) s [] ((peek? context s).map s.evStart) []

end sweep

end eventsQueue

end Orient
