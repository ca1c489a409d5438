import Verif.Model.EventsQueue

/-! Model of `/repo/orient/core/processing.py`.  A consumer receives what `sweep` produces: the
emitted events and how the generator ends.  Functions which return from inside the loop never see an
exception raised later. -/

namespace Orient.processing

open eventsQueue

variable {K : Type} [LinearOrder K]

/-- `events_queue.peek().from_test` if the queue is not empty (`/repo/orient/core/processing.py:30-31`,
`77-78`, `131-132`, `191-192`). -/
def peekFromTest (context : Context K) (s : State K) : Option Bool :=
  (peek? context s).map s.evFromTest

/-- The local variables of `process_open_linear_queue`, `/repo/orient/core/processing.py:11-12`. -/
structure OpenLinear where
  testIsSubset : Bool := true
  goalIsSubset : Bool := true
  hasNoCross : Bool := true
  hasNoTouch : Bool := true
  hasNoOverlap : Bool := true

/-- The body of the loop of `/repo/orient/core/processing.py:13-29`. -/
def OpenLinear.step (v : OpenLinear) (event : Emitted K) : OpenLinear :=
  if event.relation = .overlap then { v with hasNoOverlap := false }
  else
    let v := if event.fromTest then { v with testIsSubset := false }
      else { v with goalIsSubset := false }
    if v.hasNoOverlap then
      if event.relation = .cross then { v with hasNoCross := false }
      else if event.relation = .touch then { v with hasNoTouch := false }
      else v
    else v

/-- `/repo/orient/core/processing.py:30-34`. -/
def OpenLinear.rest (v : OpenLinear) (left : Option Bool) : OpenLinear :=
  match left with
  | none => v
  | some true => { v with testIsSubset := false }
  | some false => { v with goalIsSubset := false }

/-- `/repo/orient/core/processing.py:35-48`. -/
def OpenLinear.result (v : OpenLinear) : Relation :=
  if v.goalIsSubset then (if v.testIsSubset then .equal else .composite)
  else if v.testIsSubset then .component
  else if v.hasNoOverlap then
    (if v.hasNoCross then (if v.hasNoTouch then .disjoint else .touch) else .cross)
  else .overlap

/-- `process_open_linear_queue`, `/repo/orient/core/processing.py:9-48`. -/
def processOpenLinearQueue (context : Context K) (swept : List (Emitted K) × Py (State K)) :
    Py Relation := do
  let s ← swept.2
  return ((swept.1.foldl OpenLinear.step {}).rest (peekFromTest context s)).result

/-- The local variables of `process_closed_linear_queue`, `/repo/orient/core/processing.py:53-56`. -/
structure ClosedLinear where
  testIsSubsetOfGoal : Bool := true
  goalIsSubsetOfTest : Bool := true
  testBoundaryNotInGoalInterior : Bool := true
  goalBoundaryNotInTestInterior : Bool := true
  hasNoCross : Bool := true
  hasNoTouch : Bool := true
  hasNoOverlap : Bool := true

/-- The body of the loop of `/repo/orient/core/processing.py:57-76`. -/
def ClosedLinear.step (v : ClosedLinear) (event : Emitted K) : ClosedLinear where
  testIsSubsetOfGoal := v.testIsSubsetOfGoal && !(event.fromTest && event.outside)
  goalIsSubsetOfTest := v.goalIsSubsetOfTest && !(!event.fromTest && event.outside)
  testBoundaryNotInGoalInterior :=
    v.testBoundaryNotInGoalInterior && !(event.fromTest && event.inside)
  goalBoundaryNotInTestInterior :=
    v.goalBoundaryNotInTestInterior && !(!event.fromTest && event.inside)
  hasNoCross := v.hasNoCross && !decide (event.relation = .cross)
  hasNoTouch := v.hasNoTouch && !decide (event.relation = .touch)
  hasNoOverlap := v.hasNoOverlap && !decide (event.relation = .overlap)

/-- `/repo/orient/core/processing.py:77-81`. -/
def ClosedLinear.rest (v : ClosedLinear) (left : Option Bool) : ClosedLinear :=
  match left with
  | none => v
  | some true => { v with testIsSubsetOfGoal := false }
  | some false => { v with goalIsSubsetOfTest := false }

/-- `/repo/orient/core/processing.py:82-109`. -/
def ClosedLinear.result (v : ClosedLinear) : Relation :=
  let touching : Relation :=
    if v.hasNoOverlap then (if v.hasNoTouch then .disjoint else .touch) else .overlap
  if v.goalIsSubsetOfTest then
    if v.testIsSubsetOfGoal then .equal
    else if v.goalBoundaryNotInTestInterior then .composite
    else touching
  else if v.testIsSubsetOfGoal then
    if v.testBoundaryNotInGoalInterior then .component else touching
  else if v.hasNoOverlap then
    if v.hasNoCross ∧ v.testBoundaryNotInGoalInterior = v.goalBoundaryNotInTestInterior then
      (if v.hasNoTouch then .disjoint else .touch)
    else .cross
  else .overlap

/-- `process_closed_linear_queue`, `/repo/orient/core/processing.py:51-109`. -/
def processClosedLinearQueue (context : Context K) (swept : List (Emitted K) × Py (State K)) :
    Py Relation := do
  let s ← swept.2
  return ((swept.1.foldl ClosedLinear.step {}).rest (peekFromTest context s)).result

/-- The local variables of `process_linear_compound_queue`,
`/repo/orient/core/processing.py:116-117`. -/
structure LinearCompound where
  testNotInGoalInterior : Bool := true
  hasNoTouch : Bool := true
  testIsSubsetOfGoal : Bool := true
  goalBorderSubsetOfTest : Bool := true

/-- The body of the loop of `/repo/orient/core/processing.py:118-130` for an event whose relation is
not `CROSS`. -/
def LinearCompound.step (v : LinearCompound) (event : Emitted K) : LinearCompound :=
  let v := { v with hasNoTouch := v.hasNoTouch && decide (event.relation = SegmentsRelation.disjoint) }
  if event.fromTest then
    { v with
      testIsSubsetOfGoal := v.testIsSubsetOfGoal && !event.outside
      testNotInGoalInterior := v.testNotInGoalInterior && !event.inside }
  else
    { v with goalBorderSubsetOfTest :=
        v.goalBorderSubsetOfTest && decide (event.relation = SegmentsRelation.overlap) }

/-- `/repo/orient/core/processing.py:131-136`. -/
def LinearCompound.rest (v : LinearCompound) (left : Option Bool) : LinearCompound :=
  match left with
  | none => v
  | some true => { v with testIsSubsetOfGoal := false }
  | some false => { v with goalBorderSubsetOfTest := false }

/-- `/repo/orient/core/processing.py:137-154`. -/
def LinearCompound.result (v : LinearCompound) : Relation :=
  if v.goalBorderSubsetOfTest then
    if v.testIsSubsetOfGoal then (if v.testNotInGoalInterior then .component else .enclosed)
    else .touch
  else if v.testIsSubsetOfGoal then
    if v.testNotInGoalInterior then .component
    else (if v.hasNoTouch then .within else .enclosed)
  else if v.testNotInGoalInterior then (if v.hasNoTouch then .disjoint else .touch)
  else .cross

/-- `process_linear_compound_queue`, `/repo/orient/core/processing.py:112-154`. -/
def processLinearCompoundQueue (context : Context K) (swept : List (Emitted K) × Py (State K)) :
    Py Relation :=
  if swept.1.any (fun event => decide (event.relation = .cross)) then .ok .cross
  else do
    let s ← swept.2
    return ((swept.1.foldl LinearCompound.step {}).rest (peekFromTest context s)).result

/-- The local variables of `process_compound_queue`, `/repo/orient/core/processing.py:159-163`. -/
structure Compound where
  testBoundaryNotInGoalInterior : Bool := true
  goalBoundaryNotInTestInterior : Bool := true
  boundariesDoNotIntersect : Bool := true
  noneOverlappingComponents : Bool := true
  testIsSubsetOfGoal : Bool := true
  goalIsSubsetOfTest : Bool := true

/-- The body of the loop of `/repo/orient/core/processing.py:164-190` for an event whose relation is
not `CROSS`. -/
def Compound.step (v : Compound) (event : Emitted K) : Compound :=
  let v := { v with
    boundariesDoNotIntersect := v.boundariesDoNotIntersect && decide (event.relation = SegmentsRelation.disjoint) }
  if event.isCommonRegionBoundary then { v with noneOverlappingComponents := false }
  else if event.inside then
    let v := { v with noneOverlappingComponents := false }
    if event.fromTest then
      { v with testBoundaryNotInGoalInterior := false, goalIsSubsetOfTest := false }
    else { v with goalBoundaryNotInTestInterior := false, testIsSubsetOfGoal := false }
  else if event.outside || event.isCommonPolylineComponent then
    if event.fromTest then { v with testIsSubsetOfGoal := false }
    else { v with goalIsSubsetOfTest := false }
  else v

/-- `/repo/orient/core/processing.py:191-196`. -/
def Compound.rest (v : Compound) (left : Option Bool) : Compound :=
  match left with
  | none => v
  | some true => { v with testIsSubsetOfGoal := false }
  | some false => { v with goalIsSubsetOfTest := false }

/-- `/repo/orient/core/processing.py:197-218`. -/
def Compound.result (v : Compound) : Relation :=
  if v.boundariesDoNotIntersect then
    if v.testIsSubsetOfGoal then .within
    else if v.goalIsSubsetOfTest then .cover
    else if v.noneOverlappingComponents then .disjoint
    else .overlap
  else if v.testIsSubsetOfGoal then
    if v.goalIsSubsetOfTest then .equal
    else if v.testBoundaryNotInGoalInterior then .component
    else .enclosed
  else if v.goalIsSubsetOfTest then
    (if v.goalBoundaryNotInTestInterior then .composite else .encloses)
  else if v.noneOverlappingComponents then .touch
  else .overlap

/-- `process_compound_queue`, `/repo/orient/core/processing.py:157-218`. -/
def processCompoundQueue (context : Context K) (swept : List (Emitted K) × Py (State K)) :
    Py Relation :=
  if swept.1.any (fun event => decide (event.relation = .cross)) then .ok .overlap
  else do
    let s ← swept.2
    return ((swept.1.foldl Compound.step {}).rest (peekFromTest context s)).result

end Orient.processing
