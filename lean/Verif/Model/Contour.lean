import Verif.Model.Multisegment

/-! Model of `/repo/orient/core/contour.py` (the sweep-based `relate_multisegment` and
`relate_contour` of lines 100-131 are in `Verif.Model.Relate`). -/

namespace Orient.contour

variable {K : Type} [LinearOrder K]

/-- `/repo/orient/core/contour.py:24-29`. -/
def locatePoint (contour : Contour K) (point : Point K) (context : Context K) : Location :=
  if (context.contourSegments contour).all
      (fun segment => Orient.segment.locatePoint segment point context = Location.exterior)
  then .exterior else .boundary

/-- `/repo/orient/core/contour.py:91-97`. -/
def pointVertexLineDividesAngle (point firstRayPoint vertex secondRayPoint : Point K)
    (context : Context K) : Bool :=
  decide (context.angleOrientation vertex firstRayPoint point
    = context.angleOrientation vertex point secondRayPoint)

/-- The local variables of the loop of `/repo/orient/core/contour.py:36-38`; `last` holds
`last_touched_edge_index` and `last_touched_edge_start`. -/
structure LoopState (K : Type) where
  hasNoTouch : Bool
  hasNoCross : Bool
  last : Option (Int × Point K)

/-- The condition of `/repo/orient/core/contour.py:53-61` (and of lines 77-84):
the segment passes through the vertex `subStart` of the contour and separates its neighbours. -/
def crossesAtVertex (context : Context K) (segment : Segment K)
    (previousStart subStart subEnd : Point K) : Bool :=
  !Orient.multisegment.inPair segment.start (subStart, subEnd)
    && !Orient.multisegment.inPair segment.finish (subStart, subEnd)
    && decide (context.angleOrientation segment.start segment.finish subStart
        = Orientation.collinear)
    && pointVertexLineDividesAngle segment.start previousStart subStart subEnd context

/-- One iteration of the loop of `/repo/orient/core/contour.py:39-66`; `.inl` stands for `return`.
`last_touched_edge_index` is never `None` where it is subtracted (line 52), because
`has_no_touch` is false there. -/
def loopStep (context : Context K) (segment : Segment K) (index : Int) (subSegment : Segment K)
    (s : LoopState K) : Relation ⊕ LoopState K :=
  let relation := Orient.segment.relateSegment subSegment segment context
  if relation = .component ∨ relation = .equal then .inl .component
  else if relation = .overlap ∨ relation = .composite then .inl .overlap
  else if relation = .touch then
    let s :=
      if s.hasNoTouch then { s with hasNoTouch := false }
      else
        match s.last with
        | none => s
        | some (lastIndex, lastStart) =>
          if s.hasNoCross && decide (index - lastIndex = 1)
              && crossesAtVertex context segment lastStart subSegment.start subSegment.finish
          then { s with hasNoCross := false } else s
    .inr { s with last := some (index, subSegment.start) }
  else if s.hasNoCross ∧ relation = .cross then .inr { s with hasNoCross := false }
  else .inr s

/-- The loop of `/repo/orient/core/contour.py:39-66`. -/
def loop (context : Context K) (segment : Segment K) :
    Int → List (Segment K) → LoopState K → Relation ⊕ LoopState K
  | _, [], s => .inr s
  | index, subSegment :: rest, s =>
    match loopStep context segment index subSegment s with
    | .inl r => .inl r
    | .inr s => loop context segment (index + 1) rest s

/-- `/repo/orient/core/contour.py:32-88`. -/
def relateSegment (contour : Contour K) (segment : Segment K) (context : Context K) :
    Py Relation := do
  match loop context segment 0 (context.contourSegments contour)
      { hasNoTouch := true, hasNoCross := true, last := none } with
  | .inl r => return r
  | .inr s =>
    let vertices := contour.vertices
    let mut hasNoCross := s.hasNoCross
    if s.hasNoCross && !s.hasNoTouch
        && decide (s.last.map Prod.fst = some ((vertices.length : Int) - 1)) then
      let firstStart ← pyGet vertices (-1)
      let firstEnd ← pyGet vertices 0
      if Orient.segment.relateSegment ⟨firstStart, firstEnd⟩ segment context = .touch then
        let beforeLast ← pyGet vertices (-2)
        if crossesAtVertex context segment beforeLast firstStart firstEnd then
          hasNoCross := false
    return if hasNoCross then (if s.hasNoTouch then .disjoint else .touch) else .cross

/-- `min(range(len(vertices)), key=vertices.__getitem__)` of `/repo/orient/core/contour.py:160-161`:
the first index of a minimal element, given the best candidate so far. -/
def minIndex : List (Point K) → Nat → Nat → Point K → Nat
  | [], _, best, _ => best
  | v :: rest, i, best, bestVertex =>
    if v < bestVertex then minIndex rest (i + 1) i v else minIndex rest (i + 1) best bestVertex

/-- `/repo/orient/core/contour.py:158-163`. -/
def orientation (contour : Contour K) (context : Context K) : Py Orientation :=
  match contour.vertices with
  | [] => .error .valueError
  | v :: rest => do
    let index : Int := minIndex rest 1 0 v
    let vertices := v :: rest
    let previous ← pyGet vertices (index - 1)
    let vertex ← pyGet vertices index
    let next ← pyGet vertices ((index + 1) % vertices.length)
    return context.angleOrientation previous vertex next

/-- The pairs `(vertices[index - 1], vertices[index])` for `index` in `range(len(vertices))`. -/
def edges (vertices : List (Point K)) : List (SegmentEndpoints K) :=
  match vertices.getLast? with
  | none => []
  | some last => List.zip (last :: vertices) vertices

/-- `/repo/orient/core/contour.py:166-169`. -/
def toEdgesEndpoints (contour : Contour K) : List (SegmentEndpoints K) :=
  edges contour.vertices

/-- `/repo/orient/core/contour.py:172-183`. -/
def toOrientedEdgesEndpoints (contour : Contour K) (context : Context K)
    (clockwise : Bool := false) : Py (List (SegmentEndpoints K)) := do
  let contourOrientation ← orientation contour context
  return if contourOrientation = (if clockwise then .clockwise else .counterclockwise)
    then edges contour.vertices
    else (edges contour.vertices).reverse.map Prod.swap

/-- `/repo/orient/core/contour.py:145-153`: the chained pairs of indices. -/
def equalIndices (size index : Nat) (sameOriented : Bool) : List (Nat × Nat) :=
  if sameOriented then
    List.zip (List.range size) (List.range' index (size - index))
      ++ List.zip (List.range' (size - index) (size - (size - index))) (List.range index)
  else
    List.zip (List.range size) (List.range (index + 1)).reverse
      ++ List.zip (List.range' (index + 1) (size - (index + 1)))
          (List.range' index (size - index)).reverse

/-- `/repo/orient/core/contour.py:134-155`. -/
def equal (left right : Contour K) (context : Context K) : Py Bool := do
  if left.vertices.length ≠ right.vertices.length then
    return false
  let first ← pyGet left.vertices 0
  match right.vertices.findIdx? (fun v => decide (v = first)) with
  | none => return false
  | some index =>
    let leftOrientation ← orientation left context
    let rightOrientation ← orientation right context
    let sameOriented := decide (leftOrientation = rightOrientation)
    return (equalIndices left.vertices.length index sameOriented).all (fun indices =>
      decide (left.vertices[indices.1]? = right.vertices[indices.2]?))

end Orient.contour
