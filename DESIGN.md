# Formal model of `orient` (planar relations) in Lean 4

## Layout

| path | contents |
|---|---|
| `properties.jsonl` | the properties, stated for users of the API |
| `lean/Verif/Model/*` | the model, function by function, every definition cites file and lines |
| `lean/Verif/Spec/*` | specifications which do not mention the model: point sets, even-odd rule, relations, validity; the contract of a context; a reference context |
| `lean/Verif/Lemmas/*` | auxiliary facts about contours, regions, paths, and of the loops of the model |
| `lean/Verif/Lemmas/Sweep/*` | the invariants of the sweep and what its answers mean |
| `lean/Verif/Props/*` | the theorems listed in `MANIFEST.json`, one file per group of properties |
| `lean/Verif/Tests/*` | tests (not proofs): docstring examples run on the model |
| `seeded/LOG.jsonl` | wrong variants of the model tried against the theorems |
| `AXIOMS.txt` | the axioms of each theorem named in `MANIFEST.json`, as printed by `#print axioms` |

## Trusted base

* Lean's kernel and Mathlib; the axioms `propext`, `Classical.choice`, `Quot.sound` and no others
  (`AXIOMS.txt` lists them for each theorem).
  No `sorry`, no `native_decide`, no `bv_decide`, no added axioms.
* The transcription of the Python code into `Verif/Model`. It was compared with the 274 assertions in
  the docstrings of `orient/planar.py` (`Verif/Tests/Docstrings.lean`).
* Dependencies that are not part of the repository:
  * `ground` (geometric context): its functions are fields of `Orient.Context`, a parameter of every
    modelled function as in the code. Theorems quantify over every context that satisfies the
    contract `Orient.Context.Exact` (`Verif/Spec/Context.lean`); the contract is proved satisfiable by the
    reference context (`Verif/Spec/Reference.lean`).
  * `prioq.PriorityQueue`: modelled as a list from which the least element is taken (`Model/EventsQueue.lean`).
  * `dendroid.red_black`: modelled as the ordered list of its elements (`Model/SweepLine.lean`).
    `Model/Containers.lean` models the sweep once more over arbitrary containers, and C69 proves that the result is
    the same for every pair of containers which satisfy the contracts `PriorityQueue.Correct` and `SortedSet.Correct`
    (`Spec/Containers.lean`).  That the two libraries satisfy the contracts is trusted; heaps and search trees
    with any rebalancing are proved to (`Model/Trees.lean`, `Lemmas/Sweep/Trees.lean`).
  * `reprit`: only used for `__repr__`, not modelled.

## What is modelled and what is not

Modelled: all of `orient/core` (`box`, `contour`, `enums`, `event`, `events_queue`, `hints`, `multipolygon`,
`multiregion`, `multisegment`, `polygon`, `processing`, `region`, `segment`, `sweep_line`, `utils`) and all
35 functions of `orient/planar.py`.

Simplifications:

* Coordinates are elements of a linearly ordered field.  `Fraction` is covered, and `int` with a context that returns
  exact intersection points.  The code itself compares coordinates and calculates only in
  `_to_signed_point_event_squared_cosine` (`events_queue.py:324-330`, for two multisegments or a multisegment and a
  contour); the division there is exact in the model, while that of `int` and `float` rounds: `Model/Division.lean`
  has the sweep with any division, and C70 says how much it matters.  Everything else is calculated by the context, so rounding of `float` is a property of the context: C65 says where it has to be exact.
* Event objects are records in arenas; object identity is the address.
* A generator is modelled by the list of values it yields and the way it ends; a consumer that returns
  early sees a prefix and no later exception.
* The `while` loop of a sweep runs on fuel; property C19 states that the fuel given is always enough.
* `EventsQueueKey`/`SweepLineKey` comparisons are modelled exactly; where they are not a strict total order on
  the stored elements (only for invalid input) the result in the real containers depends on their
  internal shape, which is not modelled.
* `__repr__`, memory, running time and the `_get_context()` default are not modelled.

## How the specification is split

Nothing in `Verif/Spec` mentions functions of the model (except the type of a context).

* `Geometry` segments and contours as sets of points; `EvenOdd` interior and exterior of a closed polyline by counting crossings
  of a ray; `Linear` relations of linear geometries as statements about sets (`LinearRel`, `SharesPiece`, `CrossesAt`);
  `Compound` relations of a set, or of a pair (interior, boundary), with a pair (interior, boundary);
  `Multi` multiregions, polygons and multipolygons as sets and their validity; `Boundary` when segments of one geometry
  overlap; `Joined` polylines which avoid a set; `Ways` directions at a point; `Loose` touching without closing a ring; `Affine` affine maps;
  `Locations` relations in terms of functions which locate points; `Compose` tables of relations of three geometries;
  `Joins` joins of relations of parts; `Borders` relations of boundaries;
  `Convex` convex contours; `Nodes` contexts which are exact for given points only; `Stable` geometries with slightly moved vertices.
* `Context` the contract of a geometric context, `Reference` an implementation of it.

## How the proofs go

* C01-C09 direct, or by the loop invariants in `Lemmas/SegmentInMultisegment`, `Cover` and `SegmentInContour`: the covered
  part is a prefix, a suffix and a set of inner components which do not overlap.
* C10-C12, C31 half-plane parity (`Lemmas/Parity`, `Region`, `RegionPath`): an edge crosses a ray iff exactly one endpoint
  is in a certain half-open half-plane; the sum over a cycle telescopes.
* C35, C42 a Jordan theorem for polygons over any ordered field (`Lemmas/Jordan`, `Loop`, `Apart`, `Touching`): points with
  the same location are joined by walking along the contour close to it.
* C13, C43 `Lemmas/Passing`, `RegionSegment`: on which side of the contour a segment runs at each common point.
* C66 `Lemmas/Along`, `AlongTests`: the same near to a point, so that the segment may run along edges elsewhere; a new invariant of
  the loop over the edges, which takes overlaps into account.
* C17, C27 invariant of the sweep (`Invariant`, `Refine`, `Collect`): pieces partition the original segments and every
  reported relation is backed by geometry.
* C19 potential function (`Terminate`): length of the queue plus twice the number of pairs (piece, break point inside it).
* C67 (`Effort`): the same potential does not change by a division, is `2 (n + k)` at the beginning and zero when everything is resolved.
* C20 (`Settles`) a piece lies in its original segment, so overlapping pieces of one operand come from overlapping segments.
* C18 the invariant of the sweep line (`Kinetic`, `Order`, `Advance`, `Cuts`, `Handle`, `Settled`, `Step`, `Track`, `Told`). The sweep is
  seen as one with a slightly inclined line: for small `e > 0` the points `x + e*y` are met in the lexicographic order, so every
  segment (also a vertical one) is the graph of an affine function of time.
* C32-C34, C36-C41 the flags of the compound queue (`Lowers`, `Corner`, `Counts`, `Column`, `Position`, `Sided`, `SidedStep`, `Sides`): the
  flags of a piece on the sweep line say on which side of it the interior of its operand is, and whether it is inside of the
  other operand; then the verdict functions (`Locate`, `Describe`, `Compound`, `Relations`, `Area`, `CrossSides`, `Scenes`), and for
  operands of several parts `Union` and `Parts`.
* C25, C26 decision tables about sets (`Lemmas/Tables`, `Areal`) applied to the relations with the border and the holes.
* C72 the same with weaker tables (`Lemmas/Exhaust`), which leave open the relations that cannot be told apart without
  connectedness, and the fact that two areal geometries always are in one of the relations.
* C73 (`Sweep/Sharp`, `Crossing`): a crossing is emitted exactly if edges cross in the sense of `Spec/Crossing`, because the
  germs of both edges at the point are compared when the first of their pieces which do not coincide are neighbours.
* C74 (`ExactPolygons`): the decision table of the relations with the border and with the holes, applied to C32, C33 and C73.
* C75 (`Lemmas/AlongExact`, `ExactSegments`): the index of a point is that of the first edge which contains it; the tests at the
  endpoints say whether the segment goes outwards there if it does not run along an edge, and nothing if it does.
* C76 (`Spec/Pairs`, `ExactPairs`): the loop over the holes (over the regions) ends early exactly if one of them contains or
  overlaps with the border, and only one case of the table after it answers WITHIN; C72 leaves no other answers.
* C77 (`SwappedAll`): the exact answers of C73 and C76 are symmetric, so C50 and C29 hold for all valid operands.
* C78 (`MovedAll`), C79 (`Spec/Rewritten`, `Rewritten`): the conditions in the exact answers of C73, C74 and C76 are kept by
  affine bijections, with the exception of bounding boxes, and do not depend on how operands are written down.
* C80 (`PartsAll`): C60 from the exact answers; the regions of a multiregion do not cross each other, as otherwise
  `polygon_in_multipolygon` would be wrong where C60 says that it is right.
* C81 (`ExactMultisegments`): `Lemmas/Sweep/GroupOrder` says which of two events with the same start the queue gives first,
  `MetOrder` follows the order in which the segments from a point get into a group of events, and `WideTurns` gives each group
  to `Lemmas/Widest`, which says what `detectCrossingAngles` answers about a list in that order. `Spec/Widest` has the statement
  in terms of points only: `MetBefore` is the order of the sweep without the sweep.
* C82 (`Trust`): `Spec/Trust` has the questions (common points, parts, insides) in terms of `Location`s of points only; each
  function follows from the exact answers of the other properties, including those with wrong answers, whose shapes are known.
* C83 (`ExactSegmentsAll`): C75 without its condition about clockwise contours; `Spec/Misread` says which vertex is read there
  in place of the next one.
* C84 (`Turned`): the conditions in the exact answers of C83 and C75 under affine maps; a contour is counterclockwise iff its
  interior is on the left of its edges, so maps with a positive determinant keep the direction.
* C85 (`ConvexSegments`): a segment along an edge of a convex contour has no inner points, and one with outer points ends outside;
  with at most four vertices the misread vertex is a neighbour or the vertex itself.
* C86 (`Detour`): what is proved about multisegments, multiregions and multipolygons, for those of one part; a boundary is never
  contained in one segment, and the edges of one simple contour meet only in common endpoints.
* C87 (`ExactHoledSegments`): the table of C83 for the border and that of C73 for the holes determine the answer, and no more
  than one answer satisfies both.
* C88 (`Pieces`): on one side of an edge of a region, a hole or a border there are no other edges, so a segment which crosses
  the edge goes there and leaves all edges; so segments cross edges together if and only if one of them does.
* C89 (`LinearKinds`, `Lemmas/Separated`): at a point of a simple contour the two directions of it divide all others into
  those which lead inside and those which lead outside, so directions are separated (`CrossesAt`, the notion used for
  multisegments) exactly where the other curve changes the side (the notion used for contours in C36). With this the answers of
  functions for different kinds of linear geometries can be compared.
* C90 (`Filled`, tables in `Spec/Filled`): which answers about a contour and about the region in it go together, for segments,
  multisegments and contours. The theorems are about the answers and not about the relations, so they cover the wrong answers too.
* C91 (`BothBorders`, table in `Spec/Borders`): the answers about the boundary of each of two regions and the other region
  determine the answer about the regions; from C59, with the operands in both orders, and C23.
* C92 (`LinearJoins`, table in `Spec/LinearJoins`): the answers about two parts of a multisegment and a contour restrict the
  answer about all of it. A part which shares no piece with the contour covers nothing of it (`subset_left_of_union`), and
  directions at a point which only one part meets belong to this part (`crossesAt_left`).
* C93 (`LinearCompose`, table in `Spec/LinearCompose`): the answers about the pairs of three linear geometries fit together.
  Each answer is given by four truth values (`SetsRel.flat_eq`); inclusion carries shared points and shared pieces along,
  and these conditions are enough for the table (`compose_bits`).
* C94 (`Carve`, tables in `Spec/Carve`): the answers about the border and about the holes of a polygon restrict the answer
  about the polygon. The locations of points with respect to the three of them are related (`holedLocations`), the tables
  follow from what the relations forbid and need (`carve_of_consistent`), from points outside near to boundaries
  (`area_outside`) and from the connectedness of the region in the border (`area_one_side`).
* C95 (`Sides`, rule in `Spec/Sides`): linear geometries which do not meet the boundary of an areal one. Points joined off
  the boundary have the same location (`area_path_eq`), `WITHIN` and `DISJOINT` are right for all valid operands (C82), and
  a multisegment with points on both sides is said to cross (`multisegment_cross`, from C73).
* C96 (`BothSides`, rule in `Spec/Sides`): areal geometries whose boundaries do not meet. On the way from an inner point to
  the boundary there is a first point on one of the two boundaries (`first_on_segments`), so the inside of a geometry is
  on the side where its boundary is (`area_fence`); the answers are right as far as needed for all valid operands (C82).
* C51 (`Lemmas/Angle`, `Sweep/Turns`, `Ways`): when a group of events at one point is closed, the events are all the directions of
  both operands there, and `detect_crossing_angles` compares the angle of two of them with the others.
* C21, C28 the verdict functions as folds. C22 boxes contain their geometries. C24 list rotations (`Orientation`).
* C23, C29, C50 from the exact characterisations. C52 likewise: the outer points determine the inner points and the boundary. C53
  (`Props/Moved`) every notion of the spec goes over to the image under an affine bijection; the code is used only through its
  characterisations.
* C54-C56 from the exact characterisations; for C55 (`Lemmas/Composing`) every relation forbids some pairs of locations and
  demands others, and the tables list the relations for which the demands of all three pairs can be met together.
* C57, C58 (`Lemmas/Joining`) from C54 in the same way; C59 from C54 and, for regions, the Jordan curve theorem for contours;
  C60 from C54.
* C61 (`Lemmas/Convex`): a half-line from a point beyond an edge does not meet the contour, so such points are outside, and
  points strictly on the inner side of all edges are joined by segments which do not meet the contour, so they are inside;
  C62, C63, C64 from it and C54.
* C68 (`Lemmas/Separate`): half-planes of edges and Helly's theorem (Mathlib), with C61 and C63.
* C69 (`Lemmas/Sweep/Queued`, `Containers`, `Trees`): the comparison of queued events is a strict total order of valid events
  and is not changed by divisions; the elements of the sweep line are strictly increasing whenever it is searched
  (`Base`, `Moving`), so both containers stay within their contracts and both models make the same steps.
* C70 (`Lemmas/Sweep/Blur`, `Division`): states which are the same up to `TOUCH` and `CROSS` stay so, because a group in which
  angles are compared has events of both operands and all of them become at least `TOUCH` when it is closed; different
  compared numbers are fractions with small denominators and hence far enough from each other.
* C71 (`Lemmas/Stable`): disjoint segments are separated by a line, and the parity which decides the location of a point is
  that of a ray through no vertices, so both are the same for all near geometries; from the boundary of one
  geometry the relations follow because every inner point can be joined with the boundary beside the other geometry.
* C65 (`Lemmas/Sweep/Agree`, `Lemmas/Agree`, `Lemmas/AgreeRelate`): the invariant used for termination (endpoints of all pieces are
  vertices or crossings) shows that the context is asked only about these; runs with two contexts then agree step by step.

## Properties that are false of the code

Each has a machine-checked counterexample (`*_counterexample*`), stated on literals because it refutes a claim; the part of
the claim that holds is proved and stated as a property of its own.

| property | what goes wrong | part that holds |
|---|---|---|
| C13 | `segment_in_region`: segments along edges that go on both sides, consist of two edges, or end along an edge; diagonals of clockwise contours | C43, C66, C75, C83, C85 |
| C23 | `multisegment_in_multisegment`: TOUCH one way, CROSS the other way | C50, C77, C81 |
| C25 | `polygon_in_polygon`: WITHIN for ENCLOSED if a hole of the outer polygon touches the border of the inner one; OVERLAP for TOUCH, ENCLOSED for COMPONENT with disconnected interiors | C49, C72, C76 |
| C26 | regions and contours filling a component of a disconnected interior; multiregions equal to or covering a polygon with a disconnected interior; segments between touching holes | C47, C49, C72, C74, C76 |
| C30 | `multisegment_in_multisegment`: TOUCH although directions alternate at a point with three or more directions of the goal | C51 |
| C34 | `multisegment_in_region`: TOUCH for CROSS if the multisegment contains the whole boundary | C44, C73 |
| C36 | `contour_in_contour`: TOUCH for CROSS if the contours cross in vertices only | C45 |
| C37, C39, C40 | linear geometries through a point where parts touch in the middle of an edge | C46, C47, C73 |
| C41 | OVERLAP answered by mistake for multipolygons whose edges touch in the middle of an edge | C48, C73 |

The documented time complexity `O(segments_count * log segments_count)` does not hold either (`C67_documented`).

Found on the way: `region.relate_segment` has a mis-indented `elif` (region.py:171-174), without consequences for
counterclockwise contours unless the segment ends along an edge (`C13_counterexample_elif`), and takes the wrong neighbouring vertices for clockwise ones.
