import Verif.Model.Event

/-!
Model of `/repo/orient/core/sweep_line.py`.

The red-black tree of `dendroid` is modelled by the list of its elements in order; look-ups walk the
list comparing keys exactly as a look-up in a search tree does (`key < node.key`, else
`node.key < key`, else found).  Simplification: for a comparison which is not a strict total order
on the stored elements the outcome in the tree depends on its shape, which is not modelled.
-/

namespace Orient

variable {K : Type}

namespace sweepLine

/-- `SweepLineKey.__lt__`, `/repo/orient/core/sweep_line.py:58-86`. -/
def lt (context : Context K) (s : State K) (event otherEvent : Nat) : Bool :=
  if event = otherEvent then false
  else
    let orienteer := context.angleOrientation
    let start := (s.lefts event).start
    let finish := s.leftEnd event
    let otherStart := (s.lefts otherEvent).start
    let otherEnd := s.leftEnd otherEvent
    let otherStartOrientation := orienteer start finish otherStart
    let otherEndOrientation := orienteer start finish otherEnd
    if otherStartOrientation = otherEndOrientation then
      if otherStartOrientation = .collinear then (s.lefts event).fromTest
      else decide (otherStartOrientation = .counterclockwise)
    else
      let startOrientation := orienteer otherStart otherEnd start
      let endOrientation := orienteer otherStart otherEnd finish
      if startOrientation = endOrientation then decide (startOrientation = .clockwise)
      else if otherStartOrientation = .collinear then
        decide (otherEndOrientation = .counterclockwise)
      else if startOrientation = .collinear then decide (endOrientation = .clockwise)
      else if endOrientation = .collinear then decide (startOrientation = .clockwise)
      else decide (otherStartOrientation = .counterclockwise)

/-- `SweepLine.__contains__`, `/repo/orient/core/sweep_line.py:28-29`. -/
def contains (context : Context K) (s : State K) (event : Nat) : List Nat → Bool
  | [] => false
  | node :: rest =>
    if lt context s event node then false
    else if lt context s node event then contains context s event rest
    else true

/-- `SweepLine.add`, `/repo/orient/core/sweep_line.py:31-32`: an element with an equal key is left in
place. -/
def add (context : Context K) (s : State K) (event : Nat) : List Nat → List Nat
  | [] => [event]
  | node :: rest =>
    if lt context s event node then event :: node :: rest
    else if lt context s node event then node :: add context s event rest
    else node :: rest

/-- `SweepLine.remove`, `/repo/orient/core/sweep_line.py:34-35`; called only on elements which are
present (`/repo/orient/core/events_queue.py:102-106,212-216`), so the `ValueError` for absent
elements is not modelled. -/
def remove (context : Context K) (s : State K) (event : Nat) : List Nat → List Nat
  | [] => []
  | node :: rest =>
    if lt context s event node then node :: rest
    else if lt context s node event then node :: remove context s event rest
    else rest

/-- `SweepLine.above`, `/repo/orient/core/sweep_line.py:37-41`. -/
def above (context : Context K) (s : State K) (event : Nat) : List Nat → Option Nat
  | [] => none
  | node :: rest =>
    if lt context s event node then none
    else if lt context s node event then above context s event rest
    else rest.head?

/-- `SweepLine.below`, `/repo/orient/core/sweep_line.py:43-47`; `previous` is the element before the
rest of the list. -/
def belowFrom (context : Context K) (s : State K) (event : Nat) : Option Nat → List Nat → Option Nat
  | _, [] => none
  | previous, node :: rest =>
    if lt context s event node then none
    else if lt context s node event then belowFrom context s event (some node) rest
    else previous

/-- `SweepLine.below`, `/repo/orient/core/sweep_line.py:43-47`. -/
def below (context : Context K) (s : State K) (event : Nat) (line : List Nat) : Option Nat :=
  belowFrom context s event none line

end sweepLine

end Orient
