import Verif.Model.Planar

/-!
Model of the linear sweep with the division of scalars as a parameter.

`/repo/orient/core/events_queue.py:330` divides scalars.  Elsewhere the model divides exactly, as `Fraction` does;
`int` and `float` round quotients.  Here `quotient` is whatever `/` does.  Only `LinearEventsQueue.sweep` divides, so
only the functions which run it are repeated; everything else is as in the rest of the model.
-/

namespace Orient.division

open eventsQueue processing

variable {K : Type} [Field K] [LinearOrder K]

/-- `_to_signed_point_event_squared_cosine`, `/repo/orient/core/events_queue.py:324-330`. -/
def signedSquaredCosine (quotient : K → K → K) (context : Context K) (s : State K) (point : Point K)
    (event : Ev) : K :=
  let dotProduct := context.dotProduct (s.evStart event) point (s.evStart event) (s.evEnd event)
  quotient ((2 * (if dotProduct > 0 then 1 else 0) - 1) * (dotProduct * dotProduct))
    (context.pointsSquaredDistance (s.evStart event) (s.evEnd event))

/-- `detect_crossing_angles`, `/repo/orient/core/events_queue.py:222-254`. -/
def detectCrossingAngles (quotient : K → K → K) (context : Context K) (s : State K)
    (sameStartEvents : List Ev) : State K :=
  let testsCount := (sameStartEvents.filter (fun event => s.evFromTest event)).length
  if sameStartEvents.length < 4
      ∨ ¬ (1 < testsCount ∧ testsCount < sameStartEvents.length - 1) then s
  else
    let fromTestEvents := sameStartEvents.filter (fun event => s.evFromTest event)
    let fromGoalEvents := sameStartEvents.filter (fun event => !s.evFromTest event)
    match sameStartEvents, fromGoalEvents with
    | firstEvent :: _, goalEvent :: goalEvents =>
      let start := s.evStart firstEvent
      let baseEvent := minBy (signedSquaredCosine quotient context s (s.evEnd goalEvent)) goalEvent goalEvents
      let baseEnd := s.evEnd baseEvent
      let largestAngleEvent := minBy (signedSquaredCosine quotient context s baseEnd) goalEvent goalEvents
      let largestAngleEnd := s.evEnd largestAngleEvent
      let baseOrientation := context.angleOrientation start baseEnd largestAngleEnd
      if allEqual (fromTestEvents.map (fun testEvent =>
          pointInAngle context (s.evEnd testEvent) start baseEnd largestAngleEnd baseOrientation))
      then s
      else sameStartEvents.foldl (fun s event => s.raiseRelation (s.leftOf event) .cross) s
    | _, _ => s

/-- `/repo/orient/core/events_queue.py:200-201,219-220`. -/
def closeGroup (quotient : K → K → K) (context : Context K) (s : State K) (group : List Ev) :
    List (Emitted K) × State K :=
  completeEventsRelations (detectCrossingAngles quotient context s group) group

/-- The loop of `LinearEventsQueue.sweep`, `/repo/orient/core/events_queue.py:186-220`. -/
def sweepLoop (quotient : K → K → K) (context : Context K) (stopX : K) :
    Nat → State K → List Nat → Option (Point K) → List Ev → List (Emitted K) × Py (State K)
  | 0, _, _, _, _ => ([], .error .outOfFuel)
  | fuel + 1, s, line, start, group =>
    let finish : List (Emitted K) × Py (State K) :=
      let closed := closeGroup quotient context s group
      (closed.1, .ok closed.2)
    match peek? context s with
    | none => finish
    | some event =>
      if (s.evStart event).x > stopX then finish
      else
        let s := { s with queue := s.queue.erase event }
        let sameStart := decide (some (s.evStart event) = start)
        let closed := if sameStart then ([], s) else closeGroup quotient context s group
        let group := if sameStart then group ++ [event] else [event]
        let start := if sameStart then start else some (closed.2.evStart event)
        match handleLinear context closed.2 line event with
        | .error error => (closed.1, .error error)
        | .ok (s, line) =>
          let rest := sweepLoop quotient context stopX fuel s line start group
          (closed.1 ++ rest.1, rest.2)

/-- `LinearEventsQueue.sweep`, `/repo/orient/core/events_queue.py:186-220`. -/
def sweep (quotient : K → K → K) (context : Context K) (stopX : K) (s : State K) :
    List (Emitted K) × Py (State K) :=
  sweepLoop quotient context stopX (enoughFuel s) s [] ((peek? context s).map s.evStart) []

/-- `process_open_linear_queue(events_queue, stop_x)` for a `LinearEventsQueue`. -/
def runOpenLinear (quotient : K → K → K) (context : Context K) (s : State K) (stopX : K) : Py Relation :=
  processOpenLinearQueue context (sweep quotient context stopX s)

/-- `multisegment_in_multisegment`, `/repo/orient/planar.py:206-277` with
`/repo/orient/core/multisegment.py:144-157`. -/
def multisegmentInMultisegment (quotient : K → K → K) (left right : Multisegment K) (context : Context K) :
    Py Relation :=
  let goalBoundingBox := context.segmentsBox right.segments
  let testBoundingBox := context.segmentsBox left.segments
  if box.disjointWith goalBoundingBox testBoundingBox then .ok .disjoint
  else
    let s := (State.empty.register false (multisegment.toSegmentsEndpoints right)).register true
      (multisegment.toSegmentsEndpoints left)
    runOpenLinear quotient context s (min goalBoundingBox.maxX testBoundingBox.maxX)

/-- `multisegment_in_contour`, `/repo/orient/planar.py:367-434` with `/repo/orient/core/contour.py:100-114`. -/
def multisegmentInContour (quotient : K → K → K) (multisegment : Multisegment K) (contour : Contour K)
    (context : Context K) : Py Relation :=
  let contourBoundingBox := context.contourBox contour
  let multisegmentBoundingBox := context.segmentsBox multisegment.segments
  if box.disjointWith contourBoundingBox multisegmentBoundingBox then .ok .disjoint
  else
    let s := (State.empty.register false (Orient.contour.toEdgesEndpoints contour)).register true
      (Orient.multisegment.toSegmentsEndpoints multisegment)
    runOpenLinear quotient context s (min contourBoundingBox.maxX multisegmentBoundingBox.maxX)

end Orient.division
