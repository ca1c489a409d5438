import Verif.Model.Region
import Verif.Model.Processing

/-! Model of the sweep-based relations of `/repo/orient/core/multisegment.py`, `contour.py`,
`region.py`. -/

namespace Orient

open eventsQueue processing

variable {K : Type} [Field K] [LinearOrder K]

/-- `process_open_linear_queue(events_queue, stop_x)` for a `LinearEventsQueue`. -/
def runOpenLinear (context : Context K) (s : State K) (stopX : K) : Py Relation :=
  processOpenLinearQueue context (sweep true context stopX s)

/-- `process_closed_linear_queue(events_queue, stop_x)` for a `CompoundEventsQueue`. -/
def runClosedLinear (context : Context K) (s : State K) (stopX : K) : Py Relation :=
  processClosedLinearQueue context (sweep false context stopX s)

/-- `process_linear_compound_queue(events_queue, stop_x)` for a `CompoundEventsQueue`. -/
def runLinearCompound (context : Context K) (s : State K) (stopX : K) : Py Relation :=
  processLinearCompoundQueue context (sweep false context stopX s)

/-- `process_compound_queue(events_queue, stop_x)` for a `CompoundEventsQueue`. -/
def runCompound (context : Context K) (s : State K) (stopX : K) : Py Relation :=
  processCompoundQueue context (sweep false context stopX s)

namespace multisegment

/-- `/repo/orient/core/multisegment.py:144-157`. -/
def relateMultisegment (goal test : Multisegment K) (context : Context K) : Py Relation :=
  let goalBoundingBox := context.segmentsBox goal.segments
  let testBoundingBox := context.segmentsBox test.segments
  if box.disjointWith goalBoundingBox testBoundingBox then .ok .disjoint
  else
    let s := (State.empty.register false (toSegmentsEndpoints goal)).register true
      (toSegmentsEndpoints test)
    runOpenLinear context s (min goalBoundingBox.maxX testBoundingBox.maxX)

end multisegment

namespace contour

/-- `/repo/orient/core/contour.py:100-114`. -/
def relateMultisegment (contour : Contour K) (multisegment : Multisegment K)
    (context : Context K) : Py Relation :=
  let contourBoundingBox := context.contourBox contour
  let multisegmentBoundingBox := context.segmentsBox multisegment.segments
  if box.disjointWith contourBoundingBox multisegmentBoundingBox then .ok .disjoint
  else
    let s := (State.empty.register false (toEdgesEndpoints contour)).register true
      (Orient.multisegment.toSegmentsEndpoints multisegment)
    runOpenLinear context s (min contourBoundingBox.maxX multisegmentBoundingBox.maxX)

/-- `/repo/orient/core/contour.py:117-131`. -/
def relateContour (goal test : Contour K) (context : Context K) : Py Relation := do
  let goalBoundingBox := context.contourBox goal
  let testBoundingBox := context.contourBox test
  if box.disjointWith goalBoundingBox testBoundingBox then return .disjoint
  if ← equal goal test context then return .equal
  let goalEdges ← toOrientedEdgesEndpoints goal context
  let testEdges ← toOrientedEdgesEndpoints test context
  let s := (State.empty.register false goalEdges).register true testEdges
  runClosedLinear context s (min goalBoundingBox.maxX testBoundingBox.maxX)

end contour

namespace region

/-- `to_oriented_segments`, `/repo/orient/core/region.py:284`. -/
def toOrientedSegments (region : Region K) (context : Context K) (clockwise : Bool := false) :
    Py (List (SegmentEndpoints K)) :=
  Orient.contour.toOrientedEdgesEndpoints region context clockwise

/-- `/repo/orient/core/region.py:215-229`. -/
def relateMultisegment (region : Region K) (multisegment : Multisegment K)
    (context : Context K) : Py Relation := do
  let multisegmentBoundingBox := context.segmentsBox multisegment.segments
  let regionBoundingBox := context.contourBox region
  if box.disjointWith multisegmentBoundingBox regionBoundingBox then return .disjoint
  let regionSegments ← toOrientedSegments region context
  let s := (State.empty.register false regionSegments).register true
    (Orient.multisegment.toSegmentsEndpoints multisegment)
  runLinearCompound context s (min multisegmentBoundingBox.maxX regionBoundingBox.maxX)

/-- `_relate_contour`, `/repo/orient/core/region.py:239-255`. -/
def relateContourBoxed (region : Region K) (contour : Contour K) (contourBoundingBox : Box K)
    (context : Context K) : Py Relation := do
  let regionBoundingBox := context.contourBox region
  if box.disjointWith contourBoundingBox regionBoundingBox then return .disjoint
  if ← Orient.contour.equal region contour context then return .component
  let regionSegments ← toOrientedSegments region context
  let s := (State.empty.register false regionSegments).register true
    (Orient.contour.toEdgesEndpoints contour)
  runLinearCompound context s (min contourBoundingBox.maxX regionBoundingBox.maxX)

/-- `/repo/orient/core/region.py:232-236`. -/
def relateContour (region : Region K) (contour : Contour K) (context : Context K) : Py Relation :=
  relateContourBoxed region contour (context.contourBox contour) context

/-- `_relate_region`, `/repo/orient/core/region.py:265-280`. -/
def relateRegionBoxed (goal test : Region K) (goalBoundingBox testBoundingBox : Box K)
    (context : Context K) : Py Relation := do
  if box.disjointWith goalBoundingBox testBoundingBox then return .disjoint
  if ← Orient.contour.equal goal test context then return .equal
  let goalSegments ← toOrientedSegments goal context
  let testSegments ← toOrientedSegments test context
  let s := (State.empty.register false goalSegments).register true testSegments
  runCompound context s (min goalBoundingBox.maxX testBoundingBox.maxX)

/-- `/repo/orient/core/region.py:258-262`. -/
def relateRegion (goal test : Region K) (context : Context K) : Py Relation :=
  relateRegionBoxed goal test (context.contourBox goal) (context.contourBox test) context

end region

/-- The loop shared by `multiregion._relate_multisegment`, `_relate_contour`, `_relate_region`
(`/repo/orient/core/multiregion.py:55-69,90-103,125-143`) and `multipolygon.relate_multisegment`,
`relate_contour`, `relate_region`, `relate_polygon`
(`/repo/orient/core/multipolygon.py:52-67,81-95,110-128,170-188`): parts whose bounding boxes are
disjoint with the box of the other operand are skipped, the others are registered as the goal, and
the other operand is registered as the test before the first of them.  The result is `none_disjoint`
together with, unless all parts are skipped, the greatest `max_x` of the registered parts and the
queue. -/
def registerParts {α : Type} (boxOf : α → Box K) (segmentsOf : α → Py (List (SegmentEndpoints K)))
    (testBoundingBox : Box K) (testSegments : Py (List (SegmentEndpoints K))) :
    List α → Bool → Option (K × State K) → Py (Bool × Option (K × State K))
  | [], noneDisjoint, acc => .ok (noneDisjoint, acc)
  | part :: rest, noneDisjoint, acc =>
    if box.disjointWith testBoundingBox (boxOf part) then
      registerParts boxOf segmentsOf testBoundingBox testSegments rest false acc
    else
      match acc with
      | none => do
        let test ← testSegments
        let goal ← segmentsOf part
        registerParts boxOf segmentsOf testBoundingBox testSegments rest noneDisjoint
          (some ((boxOf part).maxX, (State.empty.register true test).register false goal))
      | some (maxX, s) => do
        let goal ← segmentsOf part
        registerParts boxOf segmentsOf testBoundingBox testSegments rest noneDisjoint
          (some (max maxX (boxOf part).maxX, s.register false goal))

/-- The correction for skipped parts, `/repo/orient/core/multiregion.py:149-157` and
`/repo/orient/core/multipolygon.py:134-142,194-202`. -/
def correctSkipped (noneDisjoint : Bool) (relation : Relation) : Relation :=
  if noneDisjoint then relation
  else if relation = .equal then .component
  else if relation = .cover ∨ relation = .encloses ∨ relation = .composite then .overlap
  else relation

namespace multiregion

/-- `/repo/orient/core/multiregion.py:24-31`. -/
def locatePoint (multiregion : Multiregion K) (point : Point K) (context : Context K) : Location :=
  match multiregion with
  | [] => .exterior
  | region :: rest =>
    let locationInRegion := Orient.region.locatePoint region point context
    if locationInRegion ≠ .exterior then locationInRegion else locatePoint rest point context

/-- `_relate_multisegment`, `/repo/orient/core/multiregion.py:50-75`. -/
def relateMultisegmentBoxed (multiregion : Multiregion K) (multisegment : Multisegment K)
    (multisegmentBoundingBox : Box K) (context : Context K) : Py Relation := do
  let (_, registered) ← registerParts context.contourBox
    (fun region => Orient.region.toOrientedSegments region context) multisegmentBoundingBox
    (.ok (Orient.multisegment.toSegmentsEndpoints multisegment)) multiregion true none
  match registered with
  | none => return .disjoint
  | some (maxX, s) => runLinearCompound context s (min multisegmentBoundingBox.maxX maxX)

/-- `/repo/orient/core/multiregion.py:34-39`. -/
def relateSegment (multiregion : Multiregion K) (segment : Segment K) (context : Context K) :
    Py Relation :=
  relateMultisegmentBoxed multiregion ⟨[segment]⟩ (context.segmentBox segment) context

/-- `/repo/orient/core/multiregion.py:42-47`. -/
def relateMultisegment (multiregion : Multiregion K) (multisegment : Multisegment K)
    (context : Context K) : Py Relation :=
  relateMultisegmentBoxed multiregion multisegment (context.segmentsBox multisegment.segments)
    context

/-- `_relate_contour`, `/repo/orient/core/multiregion.py:85-108`. -/
def relateContourBoxed (multiregion : Multiregion K) (contour : Contour K)
    (contourBoundingBox : Box K) (context : Context K) : Py Relation := do
  let (_, registered) ← registerParts context.contourBox
    (fun region => Orient.region.toOrientedSegments region context) contourBoundingBox
    (.ok (Orient.contour.toEdgesEndpoints contour)) multiregion true none
  match registered with
  | none => return .disjoint
  | some (maxX, s) => runLinearCompound context s (min contourBoundingBox.maxX maxX)

/-- `/repo/orient/core/multiregion.py:78-82`. -/
def relateContour (multiregion : Multiregion K) (contour : Contour K) (context : Context K) :
    Py Relation :=
  relateContourBoxed multiregion contour (context.contourBox contour) context

/-- `_relate_region`, `/repo/orient/core/multiregion.py:118-157`. -/
def relateRegionBoxed (goalRegions : List (Region K)) (region : Region K)
    (regionBoundingBox : Box K) (context : Context K) : Py Relation := do
  let (noneDisjoint, registered) ← registerParts context.contourBox
    (fun goalRegion => Orient.region.toOrientedSegments goalRegion context) regionBoundingBox
    (Orient.region.toOrientedSegments region context) goalRegions true none
  match registered with
  | none => return .disjoint
  | some (maxX, s) =>
    let relation ← runCompound context s (min maxX regionBoundingBox.maxX)
    return correctSkipped noneDisjoint relation

/-- `/repo/orient/core/multiregion.py:111-115`. -/
def relateRegion (multiregion : Multiregion K) (region : Region K) (context : Context K) :
    Py Relation :=
  relateRegionBoxed multiregion region (context.contourBox region) context

/-- `/repo/orient/core/multiregion.py:176-181`. -/
def toOrientedEdgesEndpoints (regions : List (Region K)) (context : Context K)
    (clockwise : Bool := false) : Py (List (SegmentEndpoints K)) :=
  match regions with
  | [] => .ok []
  | region :: rest => do
    let head ← Orient.region.toOrientedSegments region context clockwise
    let tail ← toOrientedEdgesEndpoints rest context clockwise
    return head ++ tail

/-- `/repo/orient/core/multiregion.py:160-173`. -/
def relateMultiregion (goal test : Multiregion K) (context : Context K) : Py Relation := do
  let goalBoundingBox := context.contoursBox goal
  let testBoundingBox := context.contoursBox test
  if box.disjointWith goalBoundingBox testBoundingBox then return .disjoint
  let goalSegments ← toOrientedEdgesEndpoints goal context
  let testSegments ← toOrientedEdgesEndpoints test context
  let s := (State.empty.register false goalSegments).register true testSegments
  runCompound context s (min goalBoundingBox.maxX testBoundingBox.maxX)

end multiregion

namespace polygon

/-- The loop of `/repo/orient/core/polygon.py:37-42`. -/
def locateInHoles (context : Context K) (point : Point K) : List (Contour K) → Option Location
  | [] => none
  | hole :: rest =>
    let locationInHole := Orient.region.locatePoint hole point context
    if locationInHole = .interior then some .exterior
    else if locationInHole = .boundary then some .boundary
    else locateInHoles context point rest

/-- `/repo/orient/core/polygon.py:31-43`. -/
def locatePoint (polygon : Polygon K) (point : Point K) (context : Context K) : Location :=
  let locationWithoutHoles := Orient.region.locatePoint polygon.border point context
  if locationWithoutHoles = .interior then
    (locateInHoles context point polygon.holes).getD locationWithoutHoles
  else locationWithoutHoles

/-- `/repo/orient/core/polygon.py:46-66`. -/
def relateSegment (polygon : Polygon K) (segment : Segment K) (context : Context K) :
    Py Relation := do
  let relationWithoutHoles ← Orient.region.relateSegment polygon.border segment context
  if polygon.holes ≠ [] ∧ (relationWithoutHoles = .within ∨ relationWithoutHoles = .enclosed) then
    let relationWithHoles ← Orient.multiregion.relateSegment polygon.holes segment context
    return match relationWithHoles with
      | .disjoint => relationWithoutHoles
      | .touch => .enclosed
      | .enclosed => .touch
      | .within => .disjoint
      | relation => relation
  else return relationWithoutHoles

/-- `/repo/orient/core/polygon.py:364-370`. -/
def toOrientedEdgesEndpoints (polygon : Polygon K) (context : Context K)
    (clockwise : Bool := false) : Py (List (SegmentEndpoints K)) := do
  let border ← Orient.region.toOrientedSegments polygon.border context clockwise
  let holes ← Orient.multiregion.toOrientedEdgesEndpoints polygon.holes context (!clockwise)
  return border ++ holes

/-- `/repo/orient/core/polygon.py:69-83`. -/
def relateMultisegment (polygon : Polygon K) (multisegment : Multisegment K)
    (context : Context K) : Py Relation := do
  let polygonBoundingBox := context.polygonBox polygon
  let multisegmentBoundingBox := context.segmentsBox multisegment.segments
  if box.disjointWith polygonBoundingBox multisegmentBoundingBox then return .disjoint
  let polygonSegments ← toOrientedEdgesEndpoints polygon context
  let s := (State.empty.register false polygonSegments).register true
    (Orient.multisegment.toSegmentsEndpoints multisegment)
  runLinearCompound context s (min multisegmentBoundingBox.maxX polygonBoundingBox.maxX)

/-- `/repo/orient/core/polygon.py:86-112`. -/
def relateContour (polygon : Polygon K) (contour : Contour K) (context : Context K) :
    Py Relation := do
  let contourBoundingBox := context.contourBox contour
  let relationWithoutHoles ←
    Orient.region.relateContourBoxed polygon.border contour contourBoundingBox context
  if polygon.holes ≠ [] ∧ (relationWithoutHoles = .enclosed ∨ relationWithoutHoles = .within) then
    let relationWithHoles ←
      Orient.multiregion.relateContourBoxed polygon.holes contour contourBoundingBox context
    return match relationWithHoles with
      | .disjoint => relationWithoutHoles
      | .touch => .enclosed
      | .cross => .cross
      | .component => .component
      | .enclosed => .touch
      | _ => .disjoint
  else return relationWithoutHoles

/-- `/repo/orient/core/polygon.py:115-149`. -/
def relateRegion (polygon : Polygon K) (region : Region K) (context : Context K) :
    Py Relation := do
  let regionBoundingBox := context.contourBox region
  let relationWithBorder ← Orient.region.relateRegionBoxed polygon.border region
    (context.contourBox polygon.border) regionBoundingBox context
  match relationWithBorder with
  | .disjoint | .touch | .overlap | .cover | .encloses => return relationWithBorder
  | .composite | .equal => return if polygon.holes ≠ [] then .encloses else relationWithBorder
  | _ =>
    let relationWithHoles ←
      Orient.multiregion.relateRegionBoxed polygon.holes region regionBoundingBox context
    return match relationWithHoles with
      | .disjoint => relationWithBorder
      | .touch => .enclosed
      | .equal | .component | .enclosed => .touch
      | .within => .disjoint
      | _ => .overlap

/-- The loop of `/repo/orient/core/polygon.py:163-180`, given the relations of the regions of the
multiregion with the border; `.inl` stands for `return`.  The accumulator holds `none_touch` and
the regions at `subsets_regions_indices`. -/
def relateMultiregionLoop (border : Contour K) (borderBoundingBox : Box K) (context : Context K) :
    List (Region K) → Bool → List (Region K) → Py (Relation ⊕ (Bool × List (Region K)))
  | [], noneTouch, subsets => .ok (.inr (noneTouch, subsets))
  | region :: rest, noneTouch, subsets => do
    let regionRelation ← Orient.region.relateRegionBoxed border region borderBoundingBox
      (context.contourBox region) context
    match regionRelation with
    | .touch => relateMultiregionLoop border borderBoundingBox context rest false subsets
    | .overlap | .cover | .encloses => return .inl regionRelation
    | .composite | .equal => return .inl .encloses
    | .disjoint => relateMultiregionLoop border borderBoundingBox context rest noneTouch subsets
    | _ =>
      relateMultiregionLoop border borderBoundingBox context rest
        (noneTouch && !(decide (regionRelation = .enclosed) || decide (regionRelation = .component)))
        (subsets ++ [region])

/-- `/repo/orient/core/polygon.py:152-215`. -/
def relateMultiregion (polygon : Polygon K) (multiregion : Multiregion K) (context : Context K) :
    Py Relation := do
  let borderBoundingBox := context.contourBox polygon.border
  if polygon.holes = [] then
    let relation ← Orient.multiregion.relateRegionBoxed multiregion polygon.border
      borderBoundingBox context
    return relation.complement
  match ← relateMultiregionLoop polygon.border borderBoundingBox context multiregion true [] with
  | .inl relation => return relation
  | .inr (noneTouch, subsets) =>
    if subsets ≠ [] then
      let isSubsetOfBorder := decide (subsets.length = multiregion.length)
      let relationWithHoles ← Orient.multiregion.relateMultiregion polygon.holes subsets context
      return match relationWithHoles with
        | .disjoint =>
          if isSubsetOfBorder then (if noneTouch then .within else .enclosed) else .overlap
        | .touch => if isSubsetOfBorder then .enclosed else .overlap
        | .overlap => .overlap
        | .cover | .encloses | .composite => .overlap
        | .within => if noneTouch then .disjoint else .touch
        | _ => .touch
    else return if noneTouch then .disjoint else .touch

/-- The loops of `/repo/orient/core/polygon.py:260-277` and `313-329`: the holes of the bigger polygon
against the border of the smaller one; `.inl` stands for `return`.  The accumulator holds
`none_touch` and the holes at `subsets_holes_indices`. -/
def holesLoop (border : Contour K) (borderBoundingBox : Box K) (context : Context K) :
    List (Region K) → Bool → List (Region K) → Py (Relation ⊕ (Bool × List (Region K)))
  | [], noneTouch, subsets => .ok (.inr (noneTouch, subsets))
  | hole :: rest, noneTouch, subsets => do
    let holeRelation ← Orient.region.relateRegionBoxed border hole borderBoundingBox
      (context.contourBox hole) context
    match holeRelation with
    | .touch => holesLoop border borderBoundingBox context rest false subsets
    | .overlap => return .inl .overlap
    | .cover => return .inl .disjoint
    | .encloses | .composite | .equal => return .inl .touch
    | .disjoint => holesLoop border borderBoundingBox context rest noneTouch subsets
    | _ => holesLoop border borderBoundingBox context rest noneTouch (subsets ++ [hole])

/-- `/repo/orient/core/polygon.py:218-361`. -/
def relatePolygon (goal test : Polygon K) (context : Context K) : Py Relation := do
  let goalBoundingBox := context.polygonBox goal
  let testBoundingBox := context.polygonBox test
  let bordersRelation ← Orient.region.relateRegionBoxed goal.border test.border goalBoundingBox
    testBoundingBox context
  match bordersRelation with
  | .disjoint | .touch | .overlap => return bordersRelation
  | .equal =>
    if goal.holes ≠ [] ∧ test.holes ≠ [] then
      let holesRelation ← Orient.multiregion.relateMultiregion test.holes goal.holes context
      return match holesRelation with
        | .disjoint | .touch | .overlap => .overlap
        | .cover | .encloses | .composite => .encloses
        | .equal => bordersRelation
        | _ => .enclosed
    else
      return if goal.holes ≠ [] then .encloses
        else if test.holes ≠ [] then .enclosed else .equal
  | .within | .enclosed | .component =>
    if goal.holes ≠ [] then
      match ← holesLoop test.border testBoundingBox context goal.holes true [] with
      | .inl relation => return relation
      | .inr (noneTouch, subsets) =>
        if subsets ≠ [] then
          let holesRelation ← if test.holes ≠ []
            then Orient.multiregion.relateMultiregion test.holes subsets context
            else .ok .disjoint
          return match holesRelation with
            | .equal => if bordersRelation = .within then .enclosed else bordersRelation
            | .component | .enclosed => .enclosed
            | .within => bordersRelation
            | _ => .overlap
        else return if noneTouch then bordersRelation else .enclosed
    else
      return if test.holes ≠ [] ∧ bordersRelation = .component then .enclosed else bordersRelation
  | _ =>
    if test.holes ≠ [] then
      match ← holesLoop goal.border goalBoundingBox context test.holes true [] with
      | .inl relation => return relation
      | .inr (noneTouch, subsets) =>
        if subsets ≠ [] then
          let holesRelation ← if goal.holes ≠ []
            then Orient.multiregion.relateMultiregion goal.holes subsets context
            else .ok .disjoint
          return match holesRelation with
            | .equal => if bordersRelation = .cover then .encloses else bordersRelation
            | .component | .enclosed => .encloses
            | .within => bordersRelation
            | _ => .overlap
        else return if noneTouch then bordersRelation else .encloses
    else
      return if goal.holes ≠ [] ∧ bordersRelation = .composite then .encloses else bordersRelation

end polygon

namespace multipolygon

/-- The loop of `/repo/orient/core/multipolygon.py:33-37`. -/
def locateIn (context : Context K) (point : Point K) : List (Polygon K) → Location
  | [] => .exterior
  | polygon :: rest =>
    let locationInPolygon := Orient.polygon.locatePoint polygon point context
    if locationInPolygon ≠ .exterior then locationInPolygon else locateIn context point rest

/-- `/repo/orient/core/multipolygon.py:30-37`. -/
def locatePoint (multipolygon : Multipolygon K) (point : Point K) (context : Context K) :
    Location :=
  locateIn context point multipolygon.polygons

/-- `/repo/orient/core/multipolygon.py:47-73`. -/
def relateMultisegment (multipolygon : Multipolygon K) (multisegment : Multisegment K)
    (context : Context K) : Py Relation := do
  let multisegmentBoundingBox := context.segmentsBox multisegment.segments
  let (_, registered) ← registerParts context.polygonBox
    (fun polygon => Orient.polygon.toOrientedEdgesEndpoints polygon context) multisegmentBoundingBox
    (.ok (Orient.multisegment.toSegmentsEndpoints multisegment)) multipolygon.polygons true none
  match registered with
  | none => return .disjoint
  | some (maxX, s) => runLinearCompound context s (min multisegmentBoundingBox.maxX maxX)

/-- `/repo/orient/core/multipolygon.py:40-44`. -/
def relateSegment (multipolygon : Multipolygon K) (segment : Segment K) (context : Context K) :
    Py Relation :=
  relateMultisegment multipolygon ⟨[segment]⟩ context

/-- `/repo/orient/core/multipolygon.py:76-100`. -/
def relateContour (multipolygon : Multipolygon K) (contour : Contour K) (context : Context K) :
    Py Relation := do
  let contourBoundingBox := context.contourBox contour
  let (_, registered) ← registerParts context.polygonBox
    (fun polygon => Orient.polygon.toOrientedEdgesEndpoints polygon context) contourBoundingBox
    (.ok (Orient.contour.toEdgesEndpoints contour)) multipolygon.polygons true none
  match registered with
  | none => return .disjoint
  | some (maxX, s) => runLinearCompound context s (min contourBoundingBox.maxX maxX)

/-- `/repo/orient/core/multipolygon.py:103-142`. -/
def relateRegion (multipolygon : Multipolygon K) (region : Region K) (context : Context K) :
    Py Relation := do
  let regionBoundingBox := context.contourBox region
  let (noneDisjoint, registered) ← registerParts context.polygonBox
    (fun polygon => Orient.polygon.toOrientedEdgesEndpoints polygon context) regionBoundingBox
    (Orient.region.toOrientedSegments region context) multipolygon.polygons true none
  match registered with
  | none => return .disjoint
  | some (maxX, s) =>
    let relation ← runCompound context s (min maxX regionBoundingBox.maxX)
    return correctSkipped noneDisjoint relation

/-- The loop of `/repo/orient/core/multipolygon.py:220-225`. -/
def orientedSegmentsOf (context : Context K) (clockwise : Bool) :
    List (Polygon K) → Py (List (SegmentEndpoints K))
  | [] => .ok []
  | polygon :: rest => do
    let head ← Orient.polygon.toOrientedEdgesEndpoints polygon context clockwise
    let tail ← orientedSegmentsOf context clockwise rest
    return head ++ tail

/-- `/repo/orient/core/multipolygon.py:220-225`. -/
def toOrientedSegments (multipolygon : Multipolygon K) (context : Context K)
    (clockwise : Bool := false) : Py (List (SegmentEndpoints K)) :=
  orientedSegmentsOf context clockwise multipolygon.polygons

/-- `/repo/orient/core/multipolygon.py:145-160`. -/
def relateMultiregion (multipolygon : Multipolygon K) (multiregion : Multiregion K)
    (context : Context K) : Py Relation := do
  let multiregionBoundingBox := context.contoursBox multiregion
  let multipolygonBoundingBox := context.polygonsBox multipolygon.polygons
  if box.disjointWith multipolygonBoundingBox multiregionBoundingBox then return .disjoint
  let goalSegments ← toOrientedSegments multipolygon context
  let testSegments ← Orient.multiregion.toOrientedEdgesEndpoints multiregion context
  let s := (State.empty.register false goalSegments).register true testSegments
  runCompound context s (min multipolygonBoundingBox.maxX multiregionBoundingBox.maxX)

/-- `/repo/orient/core/multipolygon.py:163-202`. -/
def relatePolygon (multipolygon : Multipolygon K) (polygon : Polygon K) (context : Context K) :
    Py Relation := do
  let polygonBoundingBox := context.polygonBox polygon
  let (noneDisjoint, registered) ← registerParts context.polygonBox
    (fun subPolygon => Orient.polygon.toOrientedEdgesEndpoints subPolygon context) polygonBoundingBox
    (Orient.polygon.toOrientedEdgesEndpoints polygon context) multipolygon.polygons true none
  match registered with
  | none => return .disjoint
  | some (maxX, s) =>
    let relation ← runCompound context s (min maxX polygonBoundingBox.maxX)
    return correctSkipped noneDisjoint relation

/-- `/repo/orient/core/multipolygon.py:205-217`. -/
def relateMultipolygon (goal test : Multipolygon K) (context : Context K) : Py Relation := do
  let goalBoundingBox := context.polygonsBox goal.polygons
  let testBoundingBox := context.polygonsBox test.polygons
  let goalSegments ← toOrientedSegments goal context
  let testSegments ← toOrientedSegments test context
  let s := (State.empty.register false goalSegments).register true testSegments
  runCompound context s (min goalBoundingBox.maxX testBoundingBox.maxX)

end multipolygon

end Orient
