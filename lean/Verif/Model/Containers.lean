import Verif.Model.EventsQueue

/-!
The sweep of `/repo/orient/core/events_queue.py` over arbitrary containers.

`Verif.Model.EventsQueue` and `Verif.Model.SweepLine` model `prioq.PriorityQueue` and the red-black
tree of `dendroid`, whose sources are not part of the repository, by lists.  Here the same functions
are modelled once more with the containers left open: a priority queue and a sorted set are given by
their operations, each of which gets the comparison of keys as it is in the current state, since the
keys refer to the events, which are mutated while they are stored.

The field `queue` of `State` is only kept for comparison with the other model and is never read here.
-/

namespace Orient

variable {K : Type}

/-- The operations of `prioq.PriorityQueue` which are used (`/repo/orient/core/events_queue.py:34-60,
64-71,80-81,177-184,193-194`). -/
structure PriorityQueue (Q : Type) where
  /-- `PriorityQueue(key=key)` -/
  empty : Q
  push : (Ev → Ev → Bool) → Ev → Q → Q
  /-- `peek`, nothing if the queue is falsy -/
  peek : Q → Option Ev
  pop : (Ev → Ev → Bool) → Q → Q

/-- The operations of `dendroid.red_black.set_` which are used
(`/repo/orient/core/sweep_line.py:20-47`). -/
structure SortedSet (S : Type) where
  /-- `red_black.set_(key=key)` -/
  empty : S
  contains : (Nat → Nat → Bool) → Nat → S → Bool
  add : (Nat → Nat → Bool) → Nat → S → S
  remove : (Nat → Nat → Bool) → Nat → S → S
  /-- `next`, nothing for `ValueError` -/
  next : (Nat → Nat → Bool) → Nat → S → Option Nat
  /-- `prev`, nothing for `ValueError` -/
  prev : (Nat → Nat → Bool) → Nat → S → Option Nat

/-- The heap of event objects and the priority queue. -/
structure Machine (K Q : Type) where
  state : State K
  queue : Q

namespace Machine

variable {Q S : Type}

/-- `EventsQueue.__init__`, `/repo/orient/core/events_queue.py:31-34`. -/
def empty [Zero K] (H : PriorityQueue Q) : Machine K Q := ⟨State.empty, H.empty⟩

section

variable [LinearOrder K] (H : PriorityQueue Q) (context : Context K)

/-- `push` in the current state. -/
def push (m : Machine K Q) (event : Ev) : Machine K Q :=
  { m with queue := H.push (eventsQueue.keyLt context m.state) event m.queue }

/-- An iteration of `register`, `/repo/orient/core/events_queue.py:64-71,177-184`. -/
def registerOne (m : Machine K Q) (fromTest : Bool) (endpoints : SegmentEndpoints K) : Machine K Q :=
  let m₁ : Machine K Q := ⟨m.state.registerOne fromTest endpoints, m.queue⟩
  (m₁.push H context (.left m.state.nextLeft)).push H context (.right m.state.nextRight)

/-- `register`, `/repo/orient/core/events_queue.py:64-71,177-184`. -/
def register (m : Machine K Q) (fromTest : Bool) (segmentsEndpoints : List (SegmentEndpoints K)) :
    Machine K Q :=
  segmentsEndpoints.foldl (fun m endpoints => m.registerOne H context fromTest endpoints) m

/-- `EventsQueue._divide_segment`, `/repo/orient/core/events_queue.py:58-60`. -/
def divide (m : Machine K Q) (event : Nat) (breakPoint : Point K) : Machine K Q :=
  let m₁ : Machine K Q := ⟨m.state.divide event breakPoint, m.queue⟩
  (m₁.push H context (.left m.state.nextLeft)).push H context (.right m.state.nextRight)

/-- The divisions made for overlapping segments of different geometries
(`/repo/orient/core/events_queue.py:130-163` and `274-301`). -/
def divideOverlapping (m : Machine K Q) (belowEvent event : Nat) : Machine K Q :=
  let s := m.state
  let startsEqual := decide ((s.lefts belowEvent).start = (s.lefts event).start)
  let endsEqual := decide (s.leftEnd belowEvent = s.leftEnd event)
  let eventFirst := startsEqual || eventsQueue.keyLt context s (.left event) (.left belowEvent)
  let startMin := if eventFirst then event else belowEvent
  let startMax := if eventFirst then belowEvent else event
  let eventRight := (s.lefts event).right
  let belowRight := (s.lefts belowEvent).right
  let eventEndFirst := endsEqual ||
    eventsQueue.keyLt context s (.right eventRight) (.right belowRight)
  let endMin := if eventEndFirst then eventRight else belowRight
  let endMax := if eventEndFirst then belowRight else eventRight
  let endMinStart := (s.rights endMin).start
  let startMaxStart := (s.lefts startMax).start
  let endMaxLeft := (s.rights endMax).left
  if startsEqual then
    if endsEqual then m else m.divide H context endMaxLeft endMinStart
  else if endsEqual then m.divide H context startMin startMaxStart
  else if startMin = endMaxLeft then
    (m.divide H context startMin endMinStart).divide H context startMin startMaxStart
  else
    (m.divide H context startMax endMinStart).divide H context startMin startMaxStart

/-- The divisions made for segments with a single common point
(`/repo/orient/core/events_queue.py:120-124` and `264-268`). -/
def divideAt (m : Machine K Q) (belowEvent event : Nat) (point : Point K) : Machine K Q :=
  let m₁ :=
    if point ≠ (m.state.lefts belowEvent).start ∧ point ≠ m.state.leftEnd belowEvent
    then m.divide H context belowEvent point else m
  if point ≠ (m₁.state.lefts event).start ∧ point ≠ m₁.state.leftEnd event
  then m₁.divide H context event point else m₁

/-- `LinearEventsQueue.detect_intersection`, `/repo/orient/core/events_queue.py:256-301`. -/
def detectIntersectionLinear (m : Machine K Q) (belowEvent event : Nat) : Py (Machine K Q) :=
  let s := m.state
  let relation := context.segmentsRelation (s.seg belowEvent) (s.seg event)
  if relation = .touch ∨ relation = .cross then
    .ok (m.divideAt H context belowEvent event
      (context.segmentsIntersection (s.seg belowEvent) (s.seg event)))
  else if relation ≠ .disjoint then
    if (s.lefts event).fromTest = (s.lefts belowEvent).fromTest then .error .valueError
    else .ok (m.divideOverlapping H context belowEvent event)
  else .ok m

/-- `CompoundEventsQueue.detect_intersection`, `/repo/orient/core/events_queue.py:111-164`. -/
def detectIntersectionCompound (m : Machine K Q) (belowEvent event : Nat) :
    Py (Machine K Q × Bool) :=
  let s := m.state
  let relation := context.segmentsRelation (s.seg belowEvent) (s.seg event)
  if relation = .touch ∨ relation = .cross then
    .ok (m.divideAt H context belowEvent event
      (context.segmentsIntersection (s.seg belowEvent) (s.seg event)), false)
  else if relation ≠ .disjoint then
    if (s.lefts event).fromTest = (s.lefts belowEvent).fromTest then .error .valueError
    else if (s.lefts belowEvent).start = (s.lefts event).start then
      let overlapKind : OverlapKind :=
        if (s.lefts event).interiorToLeft = (s.lefts belowEvent).interiorToLeft
        then .sameOrientation else .differentOrientation
      let s := (s.setLeft belowEvent (fun e => { e with overlapKind := overlapKind })).setLeft event
        (fun e => { e with overlapKind := overlapKind })
      .ok (divideOverlapping H context ⟨s, m.queue⟩ belowEvent event, true)
    else .ok (m.divideOverlapping H context belowEvent event, false)
  else .ok (m, false)

/-- `CompoundEventsQueue.compute_position`, `/repo/orient/core/events_queue.py:166-173`. -/
def computePosition (m : Machine K Q) (belowEvent : Option Nat) (event : Nat) : Machine K Q :=
  { m with state := eventsQueue.computePosition m.state belowEvent event }

variable (Z : SortedSet S)

/-- `/repo/orient/core/events_queue.py:203-211`. -/
def handleLeftLinear (m : Machine K Q) (line : S) (event : Nat) : Py (Machine K Q × S) :=
  let lt := sweepLine.lt context m.state
  let line := Z.add lt event line
  let aboveEvent := Z.next lt event line
  let belowEvent := Z.prev lt event line
  let checked := match aboveEvent with
    | some aboveEvent => m.detectIntersectionLinear H context event aboveEvent
    | none => .ok m
  match checked with
  | .error error => .error error
  | .ok m =>
    let checked := match belowEvent with
      | some belowEvent => m.detectIntersectionLinear H context belowEvent event
      | none => .ok m
    match checked with
    | .error error => .error error
    | .ok m => .ok (m, line)

/-- `/repo/orient/core/events_queue.py:212-218`. -/
def handleRightLinear (m : Machine K Q) (line : S) (event : Nat) : Py (Machine K Q × S) :=
  let lt := sweepLine.lt context m.state
  if Z.contains lt event line then
    let aboveEvent := Z.next lt event line
    let belowEvent := Z.prev lt event line
    let line := Z.remove lt event line
    match aboveEvent, belowEvent with
    | some aboveEvent, some belowEvent =>
      match m.detectIntersectionLinear H context belowEvent aboveEvent with
      | .error error => .error error
      | .ok m => .ok (m, line)
    | _, _ => .ok (m, line)
  else .ok (m, line)

/-- `/repo/orient/core/events_queue.py:94-96`. -/
def checkAbove (m : Machine K Q) (event : Nat) (aboveEvent : Option Nat) : Py (Machine K Q) :=
  match aboveEvent with
  | none => .ok m
  | some aboveEvent =>
    match m.detectIntersectionCompound H context event aboveEvent with
    | .error error => .error error
    | .ok (m, overlap) => .ok (if overlap then m.computePosition (some event) aboveEvent else m)

/-- `/repo/orient/core/events_queue.py:97-100`. -/
def checkBelow (m : Machine K Q) (line : S) (belowEvent : Option Nat) (event : Nat) :
    Py (Machine K Q) :=
  match belowEvent with
  | none => .ok m
  | some belowEvent =>
    match m.detectIntersectionCompound H context belowEvent event with
    | .error error => .error error
    | .ok (m, overlap) => .ok (if overlap
        then m.computePosition (Z.prev (sweepLine.lt context m.state) belowEvent line) belowEvent
        else m)

/-- `/repo/orient/core/events_queue.py:89-100`. -/
def handleLeftCompound (m : Machine K Q) (line : S) (event : Nat) : Py (Machine K Q × S) :=
  let lt := sweepLine.lt context m.state
  let line := Z.add lt event line
  let aboveEvent := Z.next lt event line
  let belowEvent := Z.prev lt event line
  match (m.computePosition belowEvent event).checkAbove H context event aboveEvent with
  | .error error => .error error
  | .ok m =>
    match m.checkBelow H context Z line belowEvent event with
    | .error error => .error error
    | .ok m => .ok (m, line)

/-- `/repo/orient/core/events_queue.py:101-108`. -/
def handleRightCompound (m : Machine K Q) (line : S) (event : Nat) : Py (Machine K Q × S) :=
  let lt := sweepLine.lt context m.state
  if Z.contains lt event line then
    let aboveEvent := Z.next lt event line
    let belowEvent := Z.prev lt event line
    let line := Z.remove lt event line
    match aboveEvent, belowEvent with
    | some aboveEvent, some belowEvent =>
      match m.detectIntersectionCompound H context belowEvent aboveEvent with
      | .error error => .error error
      | .ok (m, _) => .ok (m, line)
    | _, _ => .ok (m, line)
  else .ok (m, line)

/-- The body of the loops of `sweep` after the event has been popped and grouped
(`/repo/orient/core/events_queue.py:89-108,203-218`). -/
def handle (linear : Bool) (m : Machine K Q) (line : S) : Ev → Py (Machine K Q × S)
  | .left event =>
    if linear then handleLeftLinear H context Z m line event
    else handleLeftCompound H context Z m line event
  | .right event =>
    if linear then handleRightLinear H context Z m line (m.state.rights event).left
    else handleRightCompound H context Z m line (m.state.rights event).left

end

section

variable [Field K] [LinearOrder K] (H : PriorityQueue Q) (context : Context K) (Z : SortedSet S)

/-- The loops of `LinearEventsQueue.sweep` (`/repo/orient/core/events_queue.py:186-220`) and
`CompoundEventsQueue.sweep` (`/repo/orient/core/events_queue.py:73-109`), see
`Orient.eventsQueue.sweepLoop`. -/
def sweepLoop (linear : Bool) (stopX : K) : Nat → Machine K Q → S → Option (Point K) → List Ev →
    List (eventsQueue.Emitted K) × Py (State K)
  | 0, _, _, _, _ => ([], .error .outOfFuel)
  | fuel + 1, m, line, start, group =>
    let finish : List (eventsQueue.Emitted K) × Py (State K) :=
      let closed := eventsQueue.closeGroup linear context m.state group
      (closed.1, .ok closed.2)
    match H.peek m.queue with
    | none => finish
    | some event =>
      if (m.state.evStart event).x > stopX then finish
      else
        let queue := H.pop (eventsQueue.keyLt context m.state) m.queue
        let s := { m.state with queue := m.state.queue.erase event }
        let sameStart := decide (some (s.evStart event) = start)
        let closed := if sameStart then ([], s) else eventsQueue.closeGroup linear context s group
        let group := if sameStart then group ++ [event] else [event]
        let start := if sameStart then start else some (closed.2.evStart event)
        match handle H context Z linear ⟨closed.2, queue⟩ line event with
        | .error error => (closed.1, .error error)
        | .ok (m, line) =>
          let rest := sweepLoop linear stopX fuel m line start group
          (closed.1 ++ rest.1, rest.2)

/-- `sweep`, `/repo/orient/core/events_queue.py:73-109,186-220`. -/
def sweep (linear : Bool) (stopX : K) (m : Machine K Q) :
    List (eventsQueue.Emitted K) × Py (State K) :=
  sweepLoop H context Z linear stopX (eventsQueue.enoughFuel m.state) m Z.empty
    ((H.peek m.queue).map m.state.evStart) []

end

end Machine

end Orient
