import Verif.Model.Contour

/-! Model of `/repo/orient/core/region.py` (the sweep-based functions of lines 215-280 are in
`Verif.Model.Relate`). -/

namespace Orient.region

variable {K : Type} [LinearOrder K]

/-- The condition of `/repo/orient/core/region.py:47-50`: the horizontal ray going right from the
point crosses the edge. -/
def rayCrosses (context : Context K) (point start finish : Point K) : Bool :=
  (decide (start.y > point.y) != decide (finish.y > point.y))
    && (decide (finish.y > start.y)
        == decide (context.angleOrientation start finish point = Orientation.counterclockwise))

/-- The loop of `/repo/orient/core/region.py:43-52`. -/
def locateLoop (context : Context K) (point : Point K) :
    Int → List (Segment K) → Bool → Option Int × Location
  | _, [], result => (none, if result then .interior else .exterior)
  | index, edge :: rest, result =>
    if Orient.segment.locatePoint edge point context = .boundary then (some index, .boundary)
    else
      locateLoop context point (index + 1) rest
        (if rayCrosses context point edge.start edge.finish then !result else result)

/-- `/repo/orient/core/region.py:38-52`. -/
def locatePointIndexed (region : Region K) (point : Point K) (context : Context K) :
    Option Int × Location :=
  locateLoop context point 0 (context.contourSegments region) false

/-- `/repo/orient/core/region.py:31-35`. -/
def locatePoint (region : Region K) (point : Point K) (context : Context K) : Location :=
  (locatePointIndexed region point context).2

/-- The local variables of the loop of `/repo/orient/core/region.py:63-65`. -/
structure LoopState (K : Type) where
  hasNoTouch : Bool
  hasNoOverlap : Bool
  last : Option (Int × Point K)

/-- One iteration of the loop of `/repo/orient/core/region.py:66-91`. -/
def loopStep (context : Context K) (segment : Segment K) (index : Int) (edge : Segment K)
    (s : LoopState K) : Relation ⊕ LoopState K :=
  let relation := Orient.segment.relateSegment edge segment context
  if relation = .component ∨ relation = .equal then .inl .component
  else if relation = .overlap ∨ relation = .composite then .inr { s with hasNoOverlap := false }
  else if relation = .touch then
    if s.hasNoTouch then
      .inr { s with hasNoTouch := false, last := some (index, edge.start) }
    else
      match s.last with
      | none => .inr { s with last := some (index, edge.start) }
      | some (lastIndex, lastStart) =>
        if decide (index - lastIndex = 1)
            && Orient.contour.crossesAtVertex context segment lastStart edge.start edge.finish
        then .inl .cross
        else .inr { s with last := some (index, edge.start) }
  else if relation = .cross then .inl .cross
  else .inr s

/-- The loop of `/repo/orient/core/region.py:66-91`. -/
def loop (context : Context K) (segment : Segment K) :
    Int → List (Segment K) → LoopState K → Relation ⊕ LoopState K
  | _, [], s => .inr s
  | index, edge :: rest, s =>
    match loopStep context segment index edge s with
    | .inl r => .inl r
    | .inr s => loop context segment (index + 1) rest s

/-- `/repo/orient/core/region.py:55-110`. -/
def relateSegmentToContour (contour : Contour K) (segment : Segment K) (context : Context K) :
    Py Relation := do
  match loop context segment 0 (context.contourSegments contour)
      { hasNoTouch := true, hasNoOverlap := true, last := none } with
  | .inl r => return r
  | .inr s =>
    let vertices := contour.vertices
    let otherwise : Relation :=
      if s.hasNoOverlap then (if s.hasNoTouch then .disjoint else .touch) else .overlap
    if !s.hasNoTouch && decide (s.last.map Prod.fst = some ((vertices.length : Int) - 1)) then
      let firstStart ← pyGet vertices (-1)
      let firstEnd ← pyGet vertices 0
      if Orient.segment.relateSegment ⟨firstStart, firstEnd⟩ segment context = .touch then
        let beforeLast ← pyGet vertices (-2)
        if Orient.contour.crossesAtVertex context segment beforeLast firstStart firstEnd then
          return .cross
        else return otherwise
      else return otherwise
    else return otherwise

/-- `/repo/orient/core/region.py:143-177`: the test made at `start`, which lies on the edge number
`startIndex`; `true` stands for `return Relation.TOUCH`.  Lines 171-174 are an `elif` of the inner
`if`, as in the code. -/
def touchesAtStart (context : Context K) (vertices : List (Point K)) (borderOrientation : Orientation)
    (startIndex : Int) (start finish : Point K) : Py Bool := do
  let angleOrientation := context.angleOrientation
  let positivelyOriented := decide (borderOrientation = .counterclockwise)
  let edgeStart ← pyGet vertices (startIndex - 1)
  let edgeEnd ← pyGet vertices startIndex
  if start = edgeStart then
    let prevStart ← if positivelyOriented then pyGet vertices (startIndex - 2)
      else pyGet vertices startIndex
    if angleOrientation prevStart edgeStart edgeEnd = borderOrientation then
      return decide (angleOrientation edgeStart prevStart finish = borderOrientation)
        || decide (angleOrientation edgeEnd edgeStart finish = borderOrientation)
    else
      return decide (angleOrientation edgeStart prevStart finish
            = angleOrientation edgeEnd edgeStart finish)
          && decide (angleOrientation edgeEnd edgeStart finish = borderOrientation)
  else if start = edgeEnd then
    let nextEnd ← if positivelyOriented then pyGet vertices ((startIndex + 1) % vertices.length)
      else pyGet vertices (vertices.length - startIndex - 3)
    if angleOrientation edgeStart edgeEnd nextEnd = borderOrientation then
      if angleOrientation edgeEnd edgeStart finish = borderOrientation
          ∨ angleOrientation nextEnd edgeEnd finish = borderOrientation then
        return true
      else
        return decide (angleOrientation edgeEnd edgeStart finish
              = angleOrientation nextEnd edgeEnd finish)
            && decide (angleOrientation nextEnd edgeEnd finish = borderOrientation)
    else return false
  else return decide (angleOrientation edgeEnd edgeStart finish = borderOrientation)

/-- `/repo/orient/core/region.py:178-211`: the test made at `end`, which lies on the edge number
`endIndex`; here lines 205-208 are an `elif` of the outer `if`. -/
def touchesAtEnd (context : Context K) (vertices : List (Point K)) (borderOrientation : Orientation)
    (endIndex : Int) (start finish : Point K) : Py Bool := do
  let angleOrientation := context.angleOrientation
  let positivelyOriented := decide (borderOrientation = .counterclockwise)
  let edgeStart ← pyGet vertices (endIndex - 1)
  let edgeEnd ← pyGet vertices endIndex
  if finish = edgeStart then
    let prevStart ← if positivelyOriented then pyGet vertices (endIndex - 2)
      else pyGet vertices endIndex
    if angleOrientation prevStart edgeStart edgeEnd = borderOrientation then
      return decide (angleOrientation edgeStart prevStart start = borderOrientation)
        || decide (angleOrientation edgeEnd edgeStart start = borderOrientation)
    else
      return decide (angleOrientation edgeStart prevStart start
            = angleOrientation edgeEnd edgeStart start)
          && decide (angleOrientation edgeEnd edgeStart start = borderOrientation)
  else if finish = edgeEnd then
    let nextEnd ← if positivelyOriented then pyGet vertices ((endIndex + 1) % vertices.length)
      else pyGet vertices (vertices.length - endIndex - 3)
    if angleOrientation edgeStart edgeEnd nextEnd = borderOrientation then
      return decide (angleOrientation edgeEnd edgeStart start = borderOrientation)
        || decide (angleOrientation nextEnd edgeEnd start = borderOrientation)
    else
      return decide (angleOrientation edgeEnd edgeStart start
            = angleOrientation nextEnd edgeEnd start)
          && decide (angleOrientation nextEnd edgeEnd start = borderOrientation)
  else return decide (angleOrientation edgeEnd edgeStart start = borderOrientation)

/-- `/repo/orient/core/region.py:113-212`.  An index returned with location `BOUNDARY` is never
`None`; the `typeError` alternative (arithmetic on `None`) is unreachable. -/
def relateSegment (region : Region K) (segment : Segment K) (context : Context K) :
    Py Relation := do
  let relationWithContour ← relateSegmentToContour region segment context
  if relationWithContour = .cross ∨ relationWithContour = .component then
    return relationWithContour
  let start := segment.start
  let finish := segment.finish
  let (startIndex, startLocation) := locatePointIndexed region start context
  if relationWithContour = .disjoint then
    return if startLocation = .exterior then .disjoint else .within
  else if startLocation = .exterior then return .touch
  else if startLocation = .interior then return .enclosed
  else
    let (endIndex, endLocation) := locatePointIndexed region finish context
    if endLocation = .exterior then return .touch
    else if endLocation = .interior then return .enclosed
    else
      match startIndex, endIndex with
      | some startIndex, some endIndex =>
        let borderOrientation ← Orient.contour.orientation region context
        let atStart ←
          touchesAtStart context region.vertices borderOrientation startIndex start finish
        if atStart then return .touch
        let atEnd ← touchesAtEnd context region.vertices borderOrientation endIndex start finish
        if atEnd then return .touch
        return .enclosed
      | _, _ => .error .typeError

end Orient.region
