import Verif.Model.Base

/-!
Model of `/repo/orient/core/event.py` and of the mutable state of `/repo/orient/core/events_queue.py`.

Event objects are records in two arenas, addressed by natural numbers which play the role of object
identity: left events (`LinearLeftEvent` and `CompoundLeftEvent` are one record, the linear queue
never reads the three compound-only fields) and right events.  The queue holds references.
-/

namespace Orient

variable {K : Type}

/-- `/repo/orient/core/event.py:108-164` and `167-266`: the slots of a left event; `right` is the
address of its right event. -/
structure LeftEvent (K : Type) where
  start : Point K
  right : Nat
  originalStart : Point K
  fromTest : Bool
  relation : SegmentsRelation
  overlapKind : OverlapKind
  interiorToLeft : Bool
  otherInteriorToLeft : Bool

/-- `/repo/orient/core/event.py:68-105`: the slots of a right event; `left` is the address of its
left event. -/
structure RightEvent (K : Type) where
  start : Point K
  left : Nat
  originalStart : Point K

/-- A reference to an event. -/
inductive Ev
  | left (i : Nat)
  | right (i : Nat)
deriving DecidableEq, Repr

/-- `is_left`, `/repo/orient/core/event.py:61,69`. -/
def Ev.isLeft : Ev → Bool
  | .left _ => true
  | .right _ => false

/-- The heap of event objects together with the contents of the priority queue (in no particular
order, see `Orient.State.pop`). -/
structure State (K : Type) where
  lefts : Nat → LeftEvent K
  rights : Nat → RightEvent K
  nextLeft : Nat
  nextRight : Nat
  queue : List Ev

namespace State

/-- `LinearLeftEvent.end`, `CompoundLeftEvent.end` (`/repo/orient/core/event.py:134-136,205-207`). -/
def leftEnd (s : State K) (i : Nat) : Point K := (s.rights (s.lefts i).right).start

/-- The segment of a left event, as it is seen by the functions of the context
(`/repo/orient/core/events_queue.py:118,262`). -/
def seg (s : State K) (i : Nat) : Segment K := ⟨(s.lefts i).start, s.leftEnd i⟩

/-- The left event of an event: `event if event.is_left else event.left`. -/
def leftOf (s : State K) : Ev → Nat
  | .left i => i
  | .right i => (s.rights i).left

/-- `Event.start`. -/
def evStart (s : State K) : Ev → Point K
  | .left i => (s.lefts i).start
  | .right i => (s.rights i).start

/-- `Event.end`. -/
def evEnd (s : State K) : Ev → Point K
  | .left i => s.leftEnd i
  | .right i => (s.lefts (s.rights i).left).start

/-- `Event.original_start`. -/
def evOriginalStart (s : State K) : Ev → Point K
  | .left i => (s.lefts i).originalStart
  | .right i => (s.rights i).originalStart

/-- `Event.from_test`. -/
def evFromTest (s : State K) (e : Ev) : Bool := (s.lefts (s.leftOf e)).fromTest

/-- Assignment to the slots of a left event. -/
def setLeft (s : State K) (i : Nat) (f : LeftEvent K → LeftEvent K) : State K :=
  { s with lefts := fun j => if j = i then f (s.lefts j) else s.lefts j }

/-- `event.relation = relation`. -/
def setRelation (s : State K) (i : Nat) (relation : SegmentsRelation) : State K :=
  s.setLeft i (fun e => { e with relation := relation })

/-- `event.relation = max(event.relation, relation)`. -/
def raiseRelation (s : State K) (i : Nat) (relation : SegmentsRelation) : State K :=
  s.setLeft i (fun e => { e with relation := e.relation.max relation })

/-- `LinearLeftEvent.divide` (`/repo/orient/core/event.py:158-164`), `CompoundLeftEvent.divide`
(`/repo/orient/core/event.py:260-266`) followed by the two pushes of
`EventsQueue._divide_segment` (`/repo/orient/core/events_queue.py:58-60`). -/
def divide (s : State K) (i : Nat) (breakPoint : Point K) : State K :=
  let self := s.lefts i
  let tail : LeftEvent K :=
    { start := breakPoint
      right := self.right
      originalStart := self.originalStart
      fromTest := self.fromTest
      relation := self.relation
      overlapKind := .none
      interiorToLeft := self.interiorToLeft
      otherInteriorToLeft := false }
  let originalEnd := (s.rights self.right).originalStart
  let newRight : RightEvent K := { start := breakPoint, left := i, originalStart := originalEnd }
  { lefts := fun j =>
      if j = s.nextLeft then tail
      else if j = i then { s.lefts j with right := s.nextRight }
      else s.lefts j
    rights := fun j =>
      if j = s.nextRight then newRight
      else if j = self.right then { s.rights j with left := s.nextLeft }
      else s.rights j
    nextLeft := s.nextLeft + 1
    nextRight := s.nextRight + 1
    queue := .right s.nextRight :: .left s.nextLeft :: s.queue }

/-- `from_endpoints` of both kinds of left events (`/repo/orient/core/event.py:109-116,168-180`)
followed by the two pushes of `register` (`/repo/orient/core/events_queue.py:64-71,177-184`). -/
def registerOne [LinearOrder K] (s : State K) (fromTest : Bool) (endpoints : SegmentEndpoints K) :
    State K :=
  let start := if endpoints.1 > endpoints.2 then endpoints.2 else endpoints.1
  let finish := if endpoints.1 > endpoints.2 then endpoints.1 else endpoints.2
  let left : LeftEvent K :=
    { start := start
      right := s.nextRight
      originalStart := start
      fromTest := fromTest
      relation := .disjoint
      overlapKind := .none
      interiorToLeft := !decide (endpoints.1 > endpoints.2)
      otherInteriorToLeft := false }
  let right : RightEvent K := { start := finish, left := s.nextLeft, originalStart := finish }
  { lefts := fun j => if j = s.nextLeft then left else s.lefts j
    rights := fun j => if j = s.nextRight then right else s.rights j
    nextLeft := s.nextLeft + 1
    nextRight := s.nextRight + 1
    queue := .right s.nextRight :: .left s.nextLeft :: s.queue }

/-- `register`, `/repo/orient/core/events_queue.py:64-71,177-184`. -/
def register [LinearOrder K] (s : State K) (fromTest : Bool)
    (segmentsEndpoints : List (SegmentEndpoints K)) : State K :=
  segmentsEndpoints.foldl (fun s endpoints => s.registerOne fromTest endpoints) s

/-- `EventsQueue.__init__`, `/repo/orient/core/events_queue.py:31-34`: nothing allocated, nothing
queued (the arenas hold an arbitrary record at unallocated addresses). -/
def empty [Zero K] : State K where
  lefts := fun _ => ⟨⟨0, 0⟩, 0, ⟨0, 0⟩, false, .disjoint, .none, false, false⟩
  rights := fun _ => ⟨⟨0, 0⟩, 0, ⟨0, 0⟩⟩
  nextLeft := 0
  nextRight := 0
  queue := []

end State

end Orient
