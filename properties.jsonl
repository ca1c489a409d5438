{"id": "C01", "title": "point_in_segment is exact", "statement": "point_in_segment returns BOUNDARY exactly for the points of the segment (convex combinations of its endpoints) and EXTERIOR exactly for all other points; it never returns INTERIOR and does not depend on the direction of the segment.", "quantifier": "for all points and all segments with coordinates in any linearly ordered field", "why_tests_cant": "The set of points is infinite and the claim is an equivalence with a set defined by existence of a ratio; samples hit finitely many points.", "anchors": ["orient/planar.py:point_in_segment", "orient/core/segment.py:locate_point"]}
{"id": "C02", "title": "segment_in_segment is the set-theoretic relation", "statement": "segment_in_segment(left, right) is EQUAL iff both are the same set of points, COMPONENT iff left is a proper subset of right, COMPOSITE iff right is a proper subset of left, OVERLAP iff neither contains the other and they share more than one point, CROSS iff the only common point is an endpoint of neither, TOUCH iff the only common point is an endpoint of one of them, DISJOINT iff there is no common point; swapping the arguments gives the complement, reversing a segment changes nothing.", "quantifier": "for all pairs of non-degenerate segments", "why_tests_cant": "Quantifies over all positions of four endpoints and over all points of the two segments.", "anchors": ["orient/planar.py:segment_in_segment", "orient/core/segment.py:relate_segment"]}
{"id": "C03", "title": "point_in_multisegment is exact", "statement": "point_in_multisegment returns BOUNDARY iff the point lies on at least one of the segments, EXTERIOR otherwise; order, repetition and direction of the segments are irrelevant.", "quantifier": "for all points and all finite lists of segments", "why_tests_cant": "Unbounded number of segments and points.", "anchors": ["orient/planar.py:point_in_multisegment", "orient/core/multisegment.py:locate_point"]}
{"id": "C04", "title": "segment_in_multisegment: subset answers", "statement": "segment_in_multisegment answers EQUAL or COMPONENT iff every point of the segment lies on the multisegment, and EQUAL or COMPOSITE only if every point of the multisegment lies on the segment; in particular gaps between collinear pieces are never overlooked, whatever the order in which the pieces are listed.", "quantifier": "for all non-degenerate segments and all multisegments whose segments are non-degenerate and pairwise share at most one point", "why_tests_cant": "Coverage of a segment by an arbitrary number of pieces listed in an arbitrary order is an inductive fact about a loop with evolving state; tests exercise a few pieces in a few orders.", "anchors": ["orient/planar.py:segment_in_multisegment", "orient/core/multisegment.py:relate_segment", "orient/core/multisegment.py:_subtract_segments_overlap"]}
{"id": "C05", "title": "segment_in_multisegment: DISJOINT, OVERLAP, TOUCH, CROSS", "statement": "If the segment is not covered: the answer is DISJOINT iff there is no common point; OVERLAP or COMPOSITE iff they share a non-degenerate piece; otherwise CROSS iff at some inner point of the segment the multisegment has points arbitrarily close to it on both sides of the segment, and TOUCH in the remaining case.", "quantifier": "for all non-degenerate segments and all valid multisegments", "why_tests_cant": "The distinction between TOUCH and CROSS depends on which pieces meet at which points, over an unbounded number of pieces in any order.", "anchors": ["orient/planar.py:segment_in_multisegment", "orient/core/multisegment.py:relate_segment"]}
{"id": "C06", "title": "segment_in_multisegment ignores the order and the direction of the pieces", "statement": "Permuting the segments of the multisegment, reversing any of them or reversing the query segment does not change the answer of segment_in_multisegment.", "quantifier": "for all valid multisegments, all permutations and all choices of reversed segments", "why_tests_cant": "There are n! orders and 2^n reversals; the loop mutates its state differently in each of them.", "anchors": ["orient/planar.py:segment_in_multisegment", "orient/core/multisegment.py:relate_segment"]}
{"id": "C07", "title": "point_in_contour is exact", "statement": "point_in_contour returns BOUNDARY iff the point lies on one of the edges joining cyclically consecutive vertices, EXTERIOR otherwise; rotating or reversing the list of vertices changes nothing.", "quantifier": "for all points and all contours", "why_tests_cant": "Unbounded number of vertices, all points.", "anchors": ["orient/planar.py:point_in_contour", "orient/core/contour.py:locate_point"]}
{"id": "C08", "title": "segment_in_contour is the right relation", "statement": "segment_in_contour is COMPONENT iff the segment is contained in one edge, OVERLAP iff it is not but shares a non-degenerate piece with an edge, DISJOINT iff it shares no point with the contour; otherwise CROSS iff it meets an edge at a point which is an endpoint of neither or passes through a vertex whose neighbours lie strictly on different sides of it, and TOUCH in the remaining case.", "quantifier": "for all non-degenerate segments and all simple contours", "why_tests_cant": "The crossing-at-a-vertex case is detected with state carried between iterations and a wrap-around step; it depends on where in the list the vertex stands.", "anchors": ["orient/planar.py:segment_in_contour", "orient/core/contour.py:relate_segment", "orient/core/contour.py:point_vertex_line_divides_angle"]}
{"id": "C09", "title": "segment_in_contour does not depend on the representation", "statement": "Rotating or reversing the vertices of the contour, or reversing the segment, does not change segment_in_contour.", "quantifier": "for all simple contours, all rotations and reversals", "why_tests_cant": "n rotations for each of infinitely many contours; the vertex case is index dependent.", "anchors": ["orient/planar.py:segment_in_contour", "orient/core/contour.py:relate_segment"]}
{"id": "C10", "title": "point_in_region is the even-odd rule in every direction", "statement": "For a point not on the contour point_in_region is INTERIOR iff a ray from the point in any direction that avoids the vertices crosses an odd number of edges, and EXTERIOR iff it crosses an even number; the answer is BOUNDARY iff the point is on the contour.", "quantifier": "for all contours, all points and all directions of rays avoiding the vertices", "why_tests_cant": "The code only looks in one direction with a special treatment of vertices; agreement with every other direction is a parity theorem over closed polygons.", "anchors": ["orient/planar.py:point_in_region", "orient/core/region.py:locate_point", "orient/core/region.py:_locate_point"]}
{"id": "C11", "title": "point_in_region is constant off the contour", "statement": "Two points joined by a polyline which does not meet the contour have the same location; every point outside the bounding box of the contour is EXTERIOR.", "quantifier": "for all contours and all polylines avoiding them", "why_tests_cant": "Quantifies over all paths.", "anchors": ["orient/planar.py:point_in_region", "orient/core/region.py:_locate_point"]}
{"id": "C12", "title": "point_in_region does not depend on the representation", "statement": "Rotating or reversing the list of vertices does not change point_in_region, neither does exchanging the coordinates of everything or translating or scaling everything.", "quantifier": "for all contours and points", "why_tests_cant": "Symmetry over all inputs; the ray is horizontal and half-open, so the symmetry is not syntactic.", "anchors": ["orient/planar.py:point_in_region", "orient/core/region.py:_locate_point"]}
{"id": "C13", "title": "segment_in_region is the right relation", "statement": "With I, B, E the interior, boundary and exterior according to point_in_region, segment_in_region is DISJOINT iff the segment lies in E, WITHIN iff in I, COMPONENT iff in B, ENCLOSED iff in I and B meeting both, TOUCH iff in B and E meeting both, CROSS iff it meets I and E.", "quantifier": "for all non-degenerate segments and all simple contours", "why_tests_cant": "All points of the segment and all simple polygons, convex or not, in both orientations.", "anchors": ["orient/planar.py:segment_in_region", "orient/core/region.py:relate_segment", "orient/core/region.py:_relate_segment_to_contour"]}
{"id": "C14", "title": "point_in_multiregion is exact", "statement": "point_in_multiregion is the location in the first region which does not have the point in its exterior; for regions with disjoint interiors whose boundaries do not enter other interiors it is INTERIOR iff some region has it in its interior, BOUNDARY iff some region has it on its boundary, and it does not depend on the order of regions.", "quantifier": "for all multiregions, points and orders of regions", "why_tests_cant": "Unbounded number of regions, all points.", "anchors": ["orient/planar.py:point_in_multiregion", "orient/core/multiregion.py:locate_point"]}
{"id": "C15", "title": "point_in_polygon is exact", "statement": "point_in_polygon is INTERIOR iff the point is in the interior of the border and in the exterior of every hole; for holes with disjoint interiors lying in the border it is BOUNDARY iff the point is on the border contour or on the contour of a hole, otherwise EXTERIOR; the order of holes is irrelevant.", "quantifier": "for all polygons and points", "why_tests_cant": "Unbounded number of holes, all points.", "anchors": ["orient/planar.py:point_in_polygon", "orient/core/polygon.py:locate_point"]}
{"id": "C16", "title": "point_in_multipolygon is exact", "statement": "point_in_multipolygon is the location in the first polygon that does not have the point in its exterior; for polygons with disjoint interiors it does not depend on the order of polygons and is INTERIOR iff some polygon has the point in its interior.", "quantifier": "for all multipolygons and points", "why_tests_cant": "Unbounded number of polygons, all points.", "anchors": ["orient/planar.py:point_in_multipolygon", "orient/core/multipolygon.py:locate_point"]}
{"id": "C17", "title": "multisegment_in_multisegment never lies about containment", "statement": "If multisegment_in_multisegment answers EQUAL, COMPONENT or COMPOSITE then the corresponding inclusions of point sets hold; if it answers anything except DISJOINT the operands have a common point; if it answers OVERLAP they share a non-degenerate piece.", "quantifier": "for all pairs of multisegments with non-degenerate segments", "why_tests_cant": "The answer is computed by a sweep that divides segments dynamically; soundness needs an invariant over all reachable sweep states.", "anchors": ["orient/planar.py:multisegment_in_multisegment", "orient/core/multisegment.py:relate_multisegment", "orient/core/events_queue.py:LinearEventsQueue", "orient/core/processing.py:process_open_linear_queue"]}
{"id": "C18", "title": "multisegment_in_multisegment finds everything", "statement": "If the operands of multisegment_in_multisegment have a common point the answer is not DISJOINT; if one contains the other the answer says so; if they share a non-degenerate piece and neither contains the other the answer is OVERLAP.", "quantifier": "for all pairs of valid multisegments", "why_tests_cant": "Missing an intersection happens for rare configurations of sweep-line neighbours; needs the sweep invariant for all inputs.", "anchors": ["orient/planar.py:multisegment_in_multisegment", "orient/core/events_queue.py:LinearEventsQueue.sweep", "orient/core/sweep_line.py:SweepLineKey"]}
{"id": "C19", "title": "Every sweep terminates", "statement": "All relations computed by sweeping (everything between multisegments, contours, regions, multiregions, polygons and multipolygons) terminate: the number of processed events is bounded by a polynomial in the number of segments.", "quantifier": "for all lists of non-degenerate segments on both sides, valid or not", "why_tests_cant": "Termination of a loop which feeds its own queue cannot be observed on samples.", "anchors": ["orient/core/events_queue.py:EventsQueue._divide_segment", "orient/core/events_queue.py:CompoundEventsQueue.sweep", "orient/core/events_queue.py:LinearEventsQueue.sweep"]}
{"id": "C20", "title": "Errors are raised only for overlaps within one operand", "statement": "A sweep-based relation raises ValueError only if two segments of the same operand share a non-degenerate piece; it never raises anything for operands whose own segments pairwise share at most one point.", "quantifier": "for all pairs of operands", "why_tests_cant": "Absence of exceptions over all inputs and all intermediate divided segments.", "anchors": ["orient/core/events_queue.py:LinearEventsQueue.detect_intersection", "orient/core/events_queue.py:CompoundEventsQueue.detect_intersection"]}
{"id": "C21", "title": "Ranges of answers", "statement": "Linear-linear queries answer only DISJOINT, TOUCH, CROSS, OVERLAP, COMPOSITE, EQUAL, COMPONENT; linear-compound queries only DISJOINT, TOUCH, CROSS, COMPONENT, ENCLOSED, WITHIN; compound-compound queries anything except CROSS; locations in linear geometries are never INTERIOR.", "quantifier": "for all inputs", "why_tests_cant": "A range is a statement about all inputs.", "anchors": ["orient/planar.py:*", "orient/core/processing.py"]}
{"id": "C22", "title": "Bounding-box shortcuts are right", "statement": "Whenever an operand or a part of it is skipped because bounding boxes do not meet, the skipped part shares no point with the other operand, and the correction applied to the answer for skipped parts (EQUAL to COMPONENT, COVER, ENCLOSES and COMPOSITE to OVERLAP) is what the definition of relations requires.", "quantifier": "for all inputs", "why_tests_cant": "All geometries with disjoint boxes.", "anchors": ["orient/core/box.py:disjoint_with", "orient/core/multiregion.py:_relate_region", "orient/core/multipolygon.py:relate_region", "orient/core/multipolygon.py:relate_polygon"]}
{"id": "C23", "title": "Swapping operands gives the complement", "statement": "For geometries of the same kind, relation(left, right) is the complement of relation(right, left).", "quantifier": "for all pairs of valid operands", "why_tests_cant": "All pairs of inputs, both runs of the sweep in different states.", "anchors": ["orient/planar.py:segment_in_segment", "orient/planar.py:multisegment_in_multisegment", "orient/planar.py:contour_in_contour", "orient/planar.py:region_in_region", "orient/planar.py:polygon_in_polygon"]}
{"id": "C24", "title": "Contours are recognised as equal up to rotation and reversal", "statement": "contour_in_contour answers EQUAL and region_in_region answers EQUAL for contours which differ by a rotation or reversal of the list of vertices; the shortcut that detects this answers true only if the two lists of vertices are the same cycle up to rotation and reversal.", "quantifier": "for all contours with distinct vertices, all rotations and reversals", "why_tests_cant": "All lengths and all rotations.", "anchors": ["orient/core/contour.py:equal", "orient/core/contour.py:orientation", "orient/planar.py:contour_in_contour", "orient/planar.py:region_in_region"]}
{"id": "C25", "title": "polygon_in_polygon answers the relation of the point sets", "statement": "polygon_in_polygon(t, g) always answers, and the answer is the relation of the two polygons as sets with interior, boundary and exterior (DISJOINT, TOUCH, OVERLAP, EQUAL, COMPONENT, COMPOSITE, WITHIN, COVER, ENCLOSED, ENCLOSES as in C38).", "quantifier": "for all pairs of polygons with simple contours, whose holes have no common inner points and share no pieces with each other and the border, and whose interiors are connected", "why_tests_cant": "The answer is composed from a table of the relation of the borders and relations of unboundedly many holes to borders and holes; the combinations of arrangements cannot be enumerated.", "anchors": ["orient/planar.py:polygon_in_polygon", "orient/core/polygon.py:relate_polygon"]}
{"id": "C26", "title": "region, multiregion, contour and segment in polygon answer the relation of the point sets", "statement": "region_in_polygon, multiregion_in_polygon, contour_in_polygon and segment_in_polygon always answer, and the answer is the relation of the operand to the interior (inside of the border and outside of the holes), the boundary (border and holes) and the exterior of the polygon, provided that segment_in_region is right about the border.", "quantifier": "for all simple regions and contours, valid multiregions, segments, and all polygons with simple contours whose holes have no common inner points and share no pieces with each other and the border", "why_tests_cant": "The answers are composed from the relation to the border and the relation to unboundedly many holes; the combinations of arrangements cannot be enumerated.", "anchors": ["orient/core/polygon.py:relate_region", "orient/core/polygon.py:relate_multiregion", "orient/core/polygon.py:relate_contour", "orient/core/polygon.py:relate_segment"]}
{"id": "C27", "title": "Dividing segments preserves the operands", "statement": "At every moment of a sweep the union of the pieces that belong to an operand is the operand itself, as a set of points, and different pieces of one original segment have at most an endpoint in common.", "quantifier": "for all inputs and all reachable states of the sweep", "why_tests_cant": "Invariant over all executions.", "anchors": ["orient/core/event.py:LinearLeftEvent.divide", "orient/core/event.py:CompoundLeftEvent.divide", "orient/core/events_queue.py:EventsQueue._divide_segment"]}
{"id": "C28", "title": "The answer depends only on what the sweep reports, not on the order of reports", "statement": "The verdict of each processing step is a function of the set of reported pieces with their classification: permuting or repeating reports does not change it (linear queries: up to the precedence of OVERLAP), and exchanging the two operands in all reports turns the verdict into its complement.", "quantifier": "for all finite sequences of reports", "why_tests_cant": "All sequences and permutations.", "anchors": ["orient/core/processing.py:process_open_linear_queue", "orient/core/processing.py:process_closed_linear_queue", "orient/core/processing.py:process_linear_compound_queue", "orient/core/processing.py:process_compound_queue"]}
{"id": "C29", "title": "Relation with itself", "statement": "segment_in_segment(s, s) and multisegment_in_multisegment(m, m) answer EQUAL, region_in_region(r, r) and contour_in_contour(c, c) answer EQUAL, contour_in_region(r, r) answers COMPONENT, a segment of a multisegment is COMPONENT of it, an edge of a contour is COMPONENT of the contour and of the region.", "quantifier": "for all valid geometries", "why_tests_cant": "All geometries.", "anchors": ["orient/planar.py:segment_in_segment", "orient/planar.py:multisegment_in_multisegment", "orient/planar.py:region_in_region", "orient/planar.py:contour_in_contour", "orient/planar.py:contour_in_region", "orient/planar.py:segment_in_multisegment", "orient/planar.py:segment_in_contour", "orient/planar.py:segment_in_region"]}
{"id": "C30", "title": "multisegment_in_multisegment distinguishes TOUCH from CROSS", "statement": "When no non-degenerate piece is shared and there is a common point, multisegment_in_multisegment answers CROSS iff at some common point the directions in which the two operands leave the point alternate around it, and TOUCH otherwise.", "quantifier": "for all pairs of valid multisegments", "why_tests_cant": "Arbitrarily many segments can meet at the point.", "anchors": ["orient/planar.py:multisegment_in_multisegment", "orient/core/events_queue.py:LinearEventsQueue.detect_crossing_angles", "orient/core/events_queue.py:complete_events_relations"]}
{"id": "C31", "title": "Crossing edges flips the location", "statement": "If a segment meets no vertex of a contour and its endpoints are not on the contour, point_in_region gives the same location for both endpoints iff the segment meets an even number of edges.", "quantifier": "for every contour given by any list of vertices and every such segment", "why_tests_cant": "It is a statement about all pairs of points and every polygon, in particular about pairs for which the rays used by the implementation are unrelated to the segment.", "anchors": ["orient/planar.py:point_in_region", "orient/core/region.py: locate_point"]}
{"id": "C32", "title": "region_in_region answers the relation of the point sets", "statement": "region_in_region(a, b) always answers, and the answer is the relation of the two point sets with their boundaries: DISJOINT iff no common point; TOUCH iff common points exist and all of them are on both boundaries; OVERLAP iff the interiors meet and each interior has points outside of the other region; EQUAL iff the same points; WITHIN iff a is inside of the interior of b; COVER symmetrically; ENCLOSED iff a is a part of b whose boundary has points both on the boundary and in the interior of b; ENCLOSES symmetrically; COMPONENT, COMPOSITE and CROSS only as the specification tells.", "quantifier": "for all pairs of regions bounded by simple contours", "why_tests_cant": "The answer is assembled from flags of arbitrarily many events of a sweep; any arrangement of two polygons is possible.", "anchors": ["orient/planar.py:region_in_region", "orient/core/region.py:relate_region", "orient/core/processing.py:process_compound_queue", "orient/core/events_queue.py:CompoundEventsQueue"]}
{"id": "C33", "title": "contour_in_region answers the relation of the point sets", "statement": "contour_in_region(a, b) always answers: DISJOINT iff the contour is in the exterior of the region; WITHIN iff in the interior; COMPONENT iff in the boundary; ENCLOSED iff it has no outer points but inner points and points of the boundary; TOUCH iff it has no inner points but outer points and points of the boundary; CROSS iff it has inner and outer points.", "quantifier": "for every simple contour and every region bounded by a simple contour", "why_tests_cant": "All arrangements of two polygons.", "anchors": ["orient/planar.py:contour_in_region", "orient/core/region.py:relate_contour", "orient/core/processing.py:process_linear_compound_queue"]}
{"id": "C34", "title": "multisegment_in_region answers the relation of the point sets", "statement": "multisegment_in_region(m, r) always answers: DISJOINT iff the multisegment is in the exterior of the region; WITHIN iff in the interior; COMPONENT iff in the boundary; ENCLOSED iff it has no outer points but inner points and points of the boundary; TOUCH iff it has no inner points but outer points and points of the boundary; CROSS iff it has inner and outer points.", "quantifier": "for every valid multisegment and every region bounded by a simple contour", "why_tests_cant": "All arrangements of segments and a polygon.", "anchors": ["orient/planar.py:multisegment_in_region", "orient/core/region.py:relate_multisegment", "orient/core/processing.py:process_linear_compound_queue"]}
{"id": "C35", "title": "the locations of point_in_region are the two sides of the contour", "statement": "For a region bounded by a simple contour and points p, q off the contour, point_in_region(p, r) == point_in_region(q, r) if and only if p and q can be joined by a polyline that does not meet the contour; both INTERIOR and EXTERIOR occur.", "quantifier": "for every region bounded by a simple contour and all pairs of points off it", "why_tests_cant": "It is the Jordan curve theorem for polygons: the claim is about all polylines between all pairs of points and all polygons.", "anchors": ["orient/planar.py:point_in_region", "orient/core/region.py:locate_point"]}
{"id": "C36", "title": "contour_in_contour answers the relation of the curves", "statement": "contour_in_contour(a, b) always answers: EQUAL iff the contours are the same set of points; OVERLAP iff they differ but share a piece of positive length; CROSS iff they share no piece and a has points inside and points outside of b; TOUCH iff they meet without sharing a piece and a stays at one side of b; DISJOINT iff they have no common point. The answer does not depend on the order of the operands.", "quantifier": "for all pairs of simple contours", "why_tests_cant": "All arrangements of two polygons; that a contour which leaves another one on one side comes back is a consequence of the Jordan curve theorem.", "anchors": ["orient/planar.py:contour_in_contour", "orient/core/contour.py:relate_contour", "orient/core/processing.py:process_closed_linear_queue"]}
{"id": "C37", "title": "segment, multisegment and contour in multiregion answer the relation of the point sets", "statement": "segment_in_multiregion(s, m), multisegment_in_multiregion(x, m) and contour_in_multiregion(c, m) always answer: DISJOINT iff the first operand is outside of all regions; WITHIN iff it is in the interiors of the regions; COMPONENT iff in the boundaries; ENCLOSED iff it has no outer points but inner points and points of the boundaries; TOUCH iff it has no inner points but outer points and points of the boundaries; CROSS iff it has inner and outer points.", "quantifier": "for every non-degenerate segment, valid multisegment, simple contour and every multiregion of regions bounded by simple contours without common inner points and common pieces of the boundaries", "why_tests_cant": "All arrangements of linear geometries and arbitrarily many regions, some of which are skipped.", "anchors": ["orient/planar.py:segment_in_multiregion", "orient/planar.py:multisegment_in_multiregion", "orient/planar.py:contour_in_multiregion", "orient/core/multiregion.py:_relate_multisegment", "orient/core/multiregion.py:_relate_contour", "orient/core/processing.py:process_linear_compound_queue"]}
{"id": "C38", "title": "region and multiregion in multiregion answer the relation of the point sets", "statement": "region_in_multiregion(r, m) and multiregion_in_multiregion(l, m) always answer, and the answer is the relation of the unions of regions with their boundaries: DISJOINT iff no common point; TOUCH iff common points exist and all of them are on both boundaries; OVERLAP iff the interiors meet and each interior has points outside of the other operand; EQUAL, COMPONENT, COMPOSITE iff interiors and boundaries are equal or parts of each other; WITHIN, ENCLOSED, COVER, ENCLOSES iff one operand is a part of the other without or with common points of the boundaries.", "quantifier": "for all regions bounded by simple contours and all multiregions of such regions without common inner points and common pieces of the boundaries", "why_tests_cant": "All arrangements of arbitrarily many regions; regions with distant bounding boxes are skipped and the answer is corrected.", "anchors": ["orient/planar.py:region_in_multiregion", "orient/planar.py:multiregion_in_multiregion", "orient/core/multiregion.py:_relate_region", "orient/core/multiregion.py:relate_multiregion", "orient/core/processing.py:process_compound_queue"]}
{"id": "C39", "title": "multisegment_in_polygon answers the relation of the point sets", "statement": "multisegment_in_polygon(x, g) always answers: DISJOINT iff the first operand is in the exterior of the second one; WITHIN iff in the interior; COMPONENT iff in the boundary; ENCLOSED iff it has no outer points but inner points and points of the boundary; TOUCH iff it has no inner points but outer points and points of the boundary; CROSS iff it has inner and outer points. The interior of a polygon is the interior of its border without the holes and their boundaries, the boundary consists of the border and the boundaries of the holes.", "quantifier": "for every valid multisegment and every polygon with a simple border and holes inside of it, which form a multiregion and share no piece of the boundary with the border", "why_tests_cant": "All arrangements of segments and polygons with arbitrarily many holes.", "anchors": ["orient/planar.py:multisegment_in_polygon", "orient/core/polygon.py:relate_multisegment", "orient/core/polygon.py:to_oriented_edges_endpoints", "orient/core/processing.py:process_linear_compound_queue"]}
{"id": "C40", "title": "segment, multisegment and contour in multipolygon answer the relation of the point sets", "statement": "segment_in_multipolygon(s, m), multisegment_in_multipolygon(x, m) and contour_in_multipolygon(c, m) always answer: DISJOINT iff the first operand is in the exterior of the second one; WITHIN iff in the interior; COMPONENT iff in the boundary; ENCLOSED iff it has no outer points but inner points and points of the boundary; TOUCH iff it has no inner points but outer points and points of the boundary; CROSS iff it has inner and outer points.", "quantifier": "for every non-degenerate segment, valid multisegment, simple contour and every multipolygon of polygons without common inner points and common pieces of the boundaries", "why_tests_cant": "All arrangements of linear geometries and arbitrarily many polygons, some of which are skipped.", "anchors": ["orient/planar.py:segment_in_multipolygon", "orient/planar.py:multisegment_in_multipolygon", "orient/planar.py:contour_in_multipolygon", "orient/core/multipolygon.py:relate_multisegment", "orient/core/multipolygon.py:relate_contour"]}
{"id": "C41", "title": "region, multiregion, polygon and multipolygon in multipolygon answer the relation of the point sets", "statement": "region_in_multipolygon, multiregion_in_multipolygon, polygon_in_multipolygon and multipolygon_in_multipolygon always answer, and the answer is the relation of the two sets with their interiors, boundaries and exteriors (DISJOINT, TOUCH, OVERLAP, EQUAL, COMPONENT, COMPOSITE, WITHIN, COVER, ENCLOSED, ENCLOSES as in C38).", "quantifier": "for all regions, multiregions, polygons and multipolygons with simple contours, whose parts have no common inner points and no common pieces of the boundaries", "why_tests_cant": "All arrangements of arbitrarily many polygons with holes; polygons with distant bounding boxes are skipped and the answer is corrected.", "anchors": ["orient/planar.py:region_in_multipolygon", "orient/planar.py:multiregion_in_multipolygon", "orient/planar.py:polygon_in_multipolygon", "orient/planar.py:multipolygon_in_multipolygon", "orient/core/multipolygon.py:relate_region", "orient/core/multipolygon.py:relate_multiregion", "orient/core/multipolygon.py:relate_polygon", "orient/core/multipolygon.py:relate_multipolygon"]}
{"id": "C42", "title": "the interior points of a polygon can be joined inside of it", "statement": "If the border and the holes of a polygon touch each other at most in single points without closing a ring, then points p, q with point_in_polygon(p, g) == point_in_polygon(q, g) == INTERIOR are joined by a polyline of points for which point_in_polygon answers INTERIOR. More generally points off such contours have the same answers of point_in_region for each of them iff they are joined by a polyline that does not meet them.", "quantifier": "for every polygon whose border and holes can be ordered such that each has at most one common point with all following ones together, and all pairs of points", "why_tests_cant": "It is a claim about the existence of paths among unboundedly many holes of any shape; a version of the Jordan curve theorem for several curves.", "anchors": ["orient/planar.py:point_in_polygon", "orient/planar.py:point_in_region", "orient/core/polygon.py:locate_point", "orient/core/region.py:locate_point"]}
{"id": "C43", "title": "segment_in_region is right for segments that do not run along edges", "statement": "If the segment has no common piece with the contour, segment_in_region answers, and the answer is DISJOINT iff the segment lies in the exterior, WITHIN iff in the interior, ENCLOSED iff it avoids the exterior and meets the interior and the boundary, TOUCH iff it avoids the interior and meets the exterior and the boundary, CROSS iff it meets the interior and the exterior. A part of an edge is answered COMPONENT.", "quantifier": "for all non-degenerate segments and all simple contours, provided that the contour is counterclockwise, or an endpoint of the segment is off the contour, or no endpoint of the segment is a vertex", "why_tests_cant": "All chords of all simple polygons, including those which pass through or end in convex, reflex and straight vertices; C13 without these conditions is false.", "anchors": ["orient/planar.py:segment_in_region", "orient/core/region.py:relate_segment", "orient/core/region.py:_relate_segment_to_contour"]}
{"id": "C44", "title": "multisegment_in_region is right for multisegments which do not contain the boundary", "statement": "multisegment_in_region answers r iff the multisegment is in relation r to the interior, the boundary and the exterior of the region (as in C34).", "quantifier": "for all non-empty valid multisegments which do not contain the whole boundary and all simple contours", "why_tests_cant": "Infinitely many operands; the relation quantifies over all points. C34 without the condition is false.", "anchors": ["orient/planar.py:multisegment_in_region", "orient/core/region.py:relate_multisegment"]}
{"id": "C45", "title": "contour_in_contour is right if the contours cross in edges or not at all", "statement": "contour_in_contour answers r iff the contours are in relation r (C36).", "quantifier": "for all pairs of simple contours such that some common point is a vertex of neither, or one does not go from one side of the other to the other side", "why_tests_cant": "Infinitely many operands; the relation quantifies over all points. C36 without the condition is false.", "anchors": ["orient/planar.py:contour_in_contour", "orient/core/contour.py:relate_contour"]}
{"id": "C46", "title": "Linear geometries and multiregions whose regions meet in common vertices", "statement": "segment_in_multiregion, multisegment_in_multiregion and contour_in_multiregion answer r iff the operand is in relation r to the union of the interiors, the union of the boundaries and the common exterior.", "quantifier": "for all valid operands where edges of different regions meet only in common endpoints; for multisegments if they contain no whole boundary", "why_tests_cant": "Infinitely many operands; the relation quantifies over all points. C37 without the condition is false.", "anchors": ["orient/planar.py:segment_in_multiregion", "orient/planar.py:multisegment_in_multiregion", "orient/planar.py:contour_in_multiregion"]}
{"id": "C47", "title": "Linear geometries and (multi)polygons whose edges meet in common vertices", "statement": "multisegment_in_polygon, segment_in_multipolygon, multisegment_in_multipolygon and contour_in_multipolygon answer r iff the operand is in relation r to the interior, the boundary and the exterior of the polygons; segment_in_polygon answers the right relation if moreover the segment does not run along the border as in C43 and the holes do not touch the border.", "quantifier": "for all valid operands where edges of the polygons meet only in common endpoints; for multisegments if they contain no whole boundary of a polygon", "why_tests_cant": "Infinitely many operands; the relation quantifies over all points. C39 and C40 without the condition are false.", "anchors": ["orient/planar.py:multisegment_in_polygon", "orient/planar.py:segment_in_polygon", "orient/planar.py:segment_in_multipolygon", "orient/planar.py:multisegment_in_multipolygon", "orient/planar.py:contour_in_multipolygon"]}
{"id": "C48", "title": "Areal geometries and multipolygons whose edges meet in common vertices", "statement": "region_in_multipolygon, polygon_in_multipolygon, multiregion_in_multipolygon and multipolygon_in_multipolygon answer r iff the operands are in the set-theoretic relation r (C41).", "quantifier": "for all non-empty valid operands such that in one of the two operands edges meet only in common endpoints (no condition for regions)", "why_tests_cant": "Infinitely many operands; the relation quantifies over all points. C41 without the condition is false.", "anchors": ["orient/planar.py:region_in_multipolygon", "orient/planar.py:polygon_in_multipolygon", "orient/planar.py:multiregion_in_multipolygon", "orient/planar.py:multipolygon_in_multipolygon"]}
{"id": "C49", "title": "Areal geometries, contours and polygons with connected interiors", "statement": "region_in_polygon, multiregion_in_polygon and polygon_in_polygon answer r iff the operands are in the set-theoretic relation r; contour_in_polygon answers the right relation if the holes meet only in common vertices.", "quantifier": "for all valid operands where the polygons have connected interiors; for polygon_in_polygon if no hole of one touches the border of the other from outside", "why_tests_cant": "Infinitely many operands; the relation quantifies over all points. C25 and C26 without the conditions are false.", "anchors": ["orient/planar.py:region_in_polygon", "orient/planar.py:multiregion_in_polygon", "orient/planar.py:polygon_in_polygon", "orient/planar.py:contour_in_polygon"]}
{"id": "C50", "title": "Swapping operands gives the complement (the part that holds)", "statement": "For two segments, contours, regions, multiregions, polygons or multipolygons, relation(left, right) is the complement of relation(right, left).", "quantifier": "for all pairs of valid non-empty operands; for polygons if the interiors are connected and no hole of one touches the border of the other from outside, for multipolygons if in one of them edges meet only in common endpoints; not for multisegments, where it is false", "why_tests_cant": "All pairs of inputs, both runs of the sweep in different states.", "anchors": ["orient/planar.py:segment_in_segment", "orient/planar.py:contour_in_contour", "orient/planar.py:region_in_region", "orient/planar.py:multiregion_in_multiregion", "orient/planar.py:polygon_in_polygon", "orient/planar.py:multipolygon_in_multipolygon"]}
{"id": "C51", "title": "TOUCH and CROSS of multisegments and contours (the part of C30 that holds)", "statement": "multisegment_in_multisegment answers CROSS only if the operands share no non-degenerate piece and at some common point their directions alternate. It answers CROSS exactly then, and TOUCH exactly if there is a common point but neither a shared piece nor such a point, and exchanging the operands does not change this answer, if at the points where directions alternate the operands have at most two directions each or the point is inside of a segment of each. multisegment_in_contour tells CROSS and TOUCH apart in this sense for every simple contour.", "quantifier": "for all non-empty valid multisegments and all simple contours; for CROSS and TOUCH of two multisegments with the condition named in the statement, without which it is false (C30)", "why_tests_cant": "Arbitrarily many segments, any position of the crossing among the events of the sweep.", "anchors": ["orient/planar.py:multisegment_in_multisegment", "orient/planar.py:multisegment_in_contour", "orient/core/events_queue.py:LinearEventsQueue.detect_crossing_angles", "orient/core/events_queue.py:complete_events_relations", "orient/core/processing.py:process_open_linear_queue"]}
{"id": "C52", "title": "Answers depend only on the sets of points of the operands", "statement": "If point_in_* gives for two left operands the same points outside (for linear ones: the same points on them) and likewise for two right operands, then relation(left, right) is the same for both pairs: order and orientation of segments, vertices, edges, holes and components, superfluous vertices and divided segments do not matter.", "quantifier": "for all valid operands; with the conditions under which the single relations are right (C42-C51); for segment_in_multisegment at least two segments, for segment_in_contour no superfluous vertices, for multisegment_in_multisegment TOUCH and CROSS are told apart under the condition of C51; without these conditions it is false", "why_tests_cant": "Infinitely many ways to write down infinitely many geometries.", "anchors": ["orient/planar.py:segment_in_segment", "orient/planar.py:segment_in_multisegment", "orient/planar.py:segment_in_contour", "orient/planar.py:segment_in_region", "orient/planar.py:segment_in_multiregion", "orient/planar.py:segment_in_polygon", "orient/planar.py:segment_in_multipolygon", "orient/planar.py:multisegment_in_multisegment", "orient/planar.py:multisegment_in_contour", "orient/planar.py:multisegment_in_region", "orient/planar.py:multisegment_in_multiregion", "orient/planar.py:multisegment_in_polygon", "orient/planar.py:multisegment_in_multipolygon", "orient/planar.py:contour_in_contour", "orient/planar.py:contour_in_region", "orient/planar.py:contour_in_multiregion", "orient/planar.py:contour_in_polygon", "orient/planar.py:contour_in_multipolygon", "orient/planar.py:region_in_region", "orient/planar.py:region_in_multiregion", "orient/planar.py:region_in_polygon", "orient/planar.py:region_in_multipolygon", "orient/planar.py:multiregion_in_multiregion", "orient/planar.py:multiregion_in_polygon", "orient/planar.py:multiregion_in_multipolygon", "orient/planar.py:polygon_in_polygon", "orient/planar.py:polygon_in_multipolygon", "orient/planar.py:multipolygon_in_multipolygon"]}
{"id": "C53", "title": "Affine bijections of the plane do not change answers", "statement": "Applying the same affine map with non-zero determinant (translation, rotation, reflection, scaling, shear) to both operands does not change the answer of any point_in_* or *_in_* function.", "quantifier": "for all affine maps with non-zero determinant; for points and all geometries unconditionally, for segment_in_segment, segment_in_multisegment, segment_in_contour, multisegment_in_contour, contour_in_contour, contour_in_region, region_in_region, region_in_multiregion, multiregion_in_multiregion, region_in_multipolygon for all valid operands, for the others under the conditions under which they are right (C43-C51); for multisegment_in_multisegment TOUCH and CROSS are told apart under the condition of C51; without these conditions it is false for segment_in_region and multisegment_in_multisegment", "why_tests_cant": "All maps and all geometries; the sweep visits the events of the image in an unrelated order.", "anchors": ["orient/planar.py:point_in_segment", "orient/planar.py:point_in_multisegment", "orient/planar.py:point_in_contour", "orient/planar.py:point_in_region", "orient/planar.py:point_in_multiregion", "orient/planar.py:point_in_polygon", "orient/planar.py:point_in_multipolygon", "orient/planar.py:segment_in_segment", "orient/planar.py:segment_in_multisegment", "orient/planar.py:segment_in_contour", "orient/planar.py:segment_in_region", "orient/planar.py:segment_in_multiregion", "orient/planar.py:segment_in_polygon", "orient/planar.py:segment_in_multipolygon", "orient/planar.py:multisegment_in_multisegment", "orient/planar.py:multisegment_in_contour", "orient/planar.py:multisegment_in_region", "orient/planar.py:multisegment_in_multiregion", "orient/planar.py:multisegment_in_polygon", "orient/planar.py:multisegment_in_multipolygon", "orient/planar.py:contour_in_contour", "orient/planar.py:contour_in_region", "orient/planar.py:contour_in_multiregion", "orient/planar.py:contour_in_polygon", "orient/planar.py:contour_in_multipolygon", "orient/planar.py:region_in_region", "orient/planar.py:region_in_multiregion", "orient/planar.py:region_in_polygon", "orient/planar.py:region_in_multipolygon", "orient/planar.py:multiregion_in_multiregion", "orient/planar.py:multiregion_in_polygon", "orient/planar.py:multiregion_in_multipolygon", "orient/planar.py:polygon_in_polygon", "orient/planar.py:polygon_in_multipolygon", "orient/planar.py:multipolygon_in_multipolygon"]}
{"id": "C54", "title": "Relations with an areal geometry are determined by the locations of points", "statement": "relation(left, right) answers r iff r is the relation read off point_in_left(p, left) and point_in_right(p, right) for all points p: e.g. WITHIN iff every point not outside of left is INTERIOR of right, TOUCH of areal geometries iff some point is on both boundaries and every other point is outside of one of them, CROSS of a linear geometry iff it has INTERIOR and EXTERIOR points of right.", "quantifier": "for all valid non-empty operands, all pairs of kinds with an areal right operand, under the conditions under which the single relations are right (C43-C49)", "why_tests_cant": "Quantifies over all points of the plane for every pair of geometries.", "anchors": ["orient/planar.py:point_in_segment", "orient/planar.py:point_in_multisegment", "orient/planar.py:point_in_contour", "orient/planar.py:point_in_region", "orient/planar.py:point_in_multiregion", "orient/planar.py:point_in_polygon", "orient/planar.py:point_in_multipolygon", "orient/planar.py:segment_in_region", "orient/planar.py:segment_in_multiregion", "orient/planar.py:segment_in_polygon", "orient/planar.py:segment_in_multipolygon", "orient/planar.py:multisegment_in_region", "orient/planar.py:multisegment_in_multiregion", "orient/planar.py:multisegment_in_polygon", "orient/planar.py:multisegment_in_multipolygon", "orient/planar.py:contour_in_region", "orient/planar.py:contour_in_multiregion", "orient/planar.py:contour_in_polygon", "orient/planar.py:contour_in_multipolygon", "orient/planar.py:region_in_region", "orient/planar.py:region_in_multiregion", "orient/planar.py:region_in_polygon", "orient/planar.py:region_in_multipolygon", "orient/planar.py:multiregion_in_multiregion", "orient/planar.py:multiregion_in_polygon", "orient/planar.py:multiregion_in_multipolygon", "orient/planar.py:polygon_in_polygon", "orient/planar.py:polygon_in_multipolygon", "orient/planar.py:multipolygon_in_multipolygon"]}
{"id": "C55", "title": "Relations of three geometries fit together", "statement": "The answers for (a, b), (b, c) and (a, c) are consistent: the answer for (a, c) is in the list which Relation.compose gives for the other two answers. In particular parts of something WITHIN c are WITHIN c, parts of something DISJOINT with c are DISJOINT with c, and being part of (WITHIN, ENCLOSED, COMPONENT, EQUAL) is transitive.", "quantifier": "for all triples of three areal geometries, of a linear and two areal ones, and of two linear ones and an areal one, of any kinds, valid, non-empty, under the conditions of C54 for the pairs with an areal geometry", "why_tests_cant": "Quantifies over triples of geometries of 4*4*4 + 3*4*4 + 3*3*4 combinations of kinds which are computed by different code.", "anchors": ["orient/planar.py:segment_in_segment", "orient/planar.py:segment_in_multisegment", "orient/planar.py:segment_in_contour", "orient/planar.py:segment_in_region", "orient/planar.py:segment_in_multiregion", "orient/planar.py:segment_in_polygon", "orient/planar.py:segment_in_multipolygon", "orient/planar.py:multisegment_in_multisegment", "orient/planar.py:multisegment_in_contour", "orient/planar.py:multisegment_in_region", "orient/planar.py:multisegment_in_multiregion", "orient/planar.py:multisegment_in_polygon", "orient/planar.py:multisegment_in_multipolygon", "orient/planar.py:contour_in_contour", "orient/planar.py:contour_in_region", "orient/planar.py:contour_in_multiregion", "orient/planar.py:contour_in_polygon", "orient/planar.py:contour_in_multipolygon", "orient/planar.py:region_in_region", "orient/planar.py:region_in_multiregion", "orient/planar.py:region_in_polygon", "orient/planar.py:region_in_multipolygon", "orient/planar.py:multiregion_in_multiregion", "orient/planar.py:multiregion_in_polygon", "orient/planar.py:multiregion_in_multipolygon", "orient/planar.py:polygon_in_polygon", "orient/planar.py:polygon_in_multipolygon", "orient/planar.py:multipolygon_in_multipolygon"]}
{"id": "C56", "title": "It does not matter by which kind of geometry a set of points is given", "statement": "A region gives the same answers as the multiregion of it, the polygon with it as border and no holes, and the multipolygon of that polygon, as left and as right operand. In general, geometries of different kinds for which all points have the same location give the same answers (polygon and multipolygon of it, multiregion and multipolygon, segment and multisegment of it, contour and multisegment of its edges, with an areal right operand).", "quantifier": "for all regions in all sixteen combinations and contours in all four combinations without conditions; for multisegments which do not contain the boundary; for the other kinds under the conditions of C54; for segments and clockwise regions it is false", "why_tests_cant": "Compares different functions on all inputs.", "anchors": ["orient/planar.py:segment_in_region", "orient/planar.py:segment_in_multiregion", "orient/planar.py:segment_in_polygon", "orient/planar.py:segment_in_multipolygon", "orient/planar.py:multisegment_in_region", "orient/planar.py:multisegment_in_multiregion", "orient/planar.py:multisegment_in_polygon", "orient/planar.py:multisegment_in_multipolygon", "orient/planar.py:contour_in_region", "orient/planar.py:contour_in_multiregion", "orient/planar.py:contour_in_polygon", "orient/planar.py:contour_in_multipolygon", "orient/planar.py:region_in_region", "orient/planar.py:region_in_multiregion", "orient/planar.py:region_in_polygon", "orient/planar.py:region_in_multipolygon", "orient/planar.py:multiregion_in_multiregion", "orient/planar.py:multiregion_in_polygon", "orient/planar.py:multiregion_in_multipolygon", "orient/planar.py:polygon_in_polygon", "orient/planar.py:polygon_in_multipolygon", "orient/planar.py:multipolygon_in_multipolygon"]}
{"id": "C57", "title": "The relation of a linear geometry to an areal one is determined by the relations of its pieces", "statement": "multisegment_in_X is the join of segment_in_X for its segments, contour_in_X is the join of segment_in_X for its edges, and the answer for a multisegment is determined by those for its first segment and for the others: all pieces WITHIN gives WITHIN, some piece CROSS or pieces on both sides give CROSS, and so on.", "quantifier": "for all valid multisegments, contours and areal geometries of all kinds, under the conditions of C54", "why_tests_cant": "The pieces are related by other functions than the whole, for arbitrary decompositions.", "anchors": ["orient/planar.py:segment_in_region", "orient/planar.py:segment_in_multiregion", "orient/planar.py:segment_in_polygon", "orient/planar.py:segment_in_multipolygon", "orient/planar.py:multisegment_in_region", "orient/planar.py:multisegment_in_multiregion", "orient/planar.py:multisegment_in_polygon", "orient/planar.py:multisegment_in_multipolygon", "orient/planar.py:contour_in_region", "orient/planar.py:contour_in_multiregion", "orient/planar.py:contour_in_polygon", "orient/planar.py:contour_in_multipolygon"]}
{"id": "C58", "title": "The relation of a union of areal geometries follows from the relations of the parts", "statement": "If an areal geometry consists of two parts, the answer for it is in the list which Relation.unite gives for the answers for the parts; in particular for a multiregion or multipolygon and its first element and the remaining ones, as left and as right operand. E.g. DISJOINT and DISJOINT give DISJOINT, WITHIN and WITHIN give WITHIN, DISJOINT and COVER give COVER, ENCLOSED and WITHIN give ENCLOSED.", "quantifier": "for all valid areal geometries of all kinds, under the conditions of C54", "why_tests_cant": "Quantifies over decompositions; the claim of the project's own test that only COVER gives COVER does not hold in general (C58_example).", "anchors": ["orient/planar.py:region_in_region", "orient/planar.py:region_in_multiregion", "orient/planar.py:region_in_polygon", "orient/planar.py:region_in_multipolygon", "orient/planar.py:multiregion_in_multiregion", "orient/planar.py:multiregion_in_polygon", "orient/planar.py:multiregion_in_multipolygon", "orient/planar.py:polygon_in_polygon", "orient/planar.py:polygon_in_multipolygon", "orient/planar.py:multipolygon_in_multipolygon"]}
{"id": "C59", "title": "The relation of a region restricts the relation of its boundary", "statement": "region_in_region determines contour_in_region: DISJOINT and COVER give DISJOINT, TOUCH and ENCLOSES give TOUCH, OVERLAP gives CROSS, EQUAL gives COMPONENT, ENCLOSED gives ENCLOSED, WITHIN gives WITHIN; it restricts contour_in_contour; and for areal geometries of any kinds the relation of the boundary of the left operand is in the list which Relation.border gives.", "quantifier": "for all simple contours; for other kinds under the conditions of C54 (there the boundary's relation is not determined: C59_counterexample)", "why_tests_cant": "Relates answers of different functions for all pairs of geometries.", "anchors": ["orient/planar.py:region_in_region", "orient/planar.py:contour_in_region", "orient/planar.py:contour_in_contour", "orient/planar.py:region_in_multiregion", "orient/planar.py:contour_in_multiregion", "orient/planar.py:region_in_polygon", "orient/planar.py:contour_in_polygon", "orient/planar.py:region_in_multipolygon", "orient/planar.py:contour_in_multipolygon"]}
{"id": "C60", "title": "Geometries and their parts", "statement": "The border of a polygon as a region ENCLOSES it (EQUAL without holes), holes TOUCH it, alone and together, the polygon is ENCLOSED by the polygon without its holes, border and holes as contours are COMPONENT; a region of a multiregion and a polygon of a multipolygon are COMPONENT of it, or EQUAL if alone.", "quantifier": "for all valid polygons with connected interior, multiregions and multipolygons", "why_tests_cant": "Holds for arbitrary numbers and positions of holes and elements, touching ones included.", "anchors": ["orient/planar.py:region_in_polygon", "orient/planar.py:multiregion_in_polygon", "orient/planar.py:polygon_in_polygon", "orient/planar.py:contour_in_polygon", "orient/planar.py:region_in_multiregion", "orient/planar.py:polygon_in_multipolygon"]}
{"id": "C61", "title": "Points are located in convex regions by the sides of the edges", "statement": "For a contour whose vertices are never on the right of an edge, point_in_region is INTERIOR exactly for the points strictly on the left of every edge, EXTERIOR exactly for the points strictly on the right of some edge and BOUNDARY for the others; the other way round for clockwise ones. Points between points which are not outside of a convex region are not outside, and points between an interior point and another one are interior.", "quantifier": "for all simple contours all of whose vertices are on one side of every edge, in both directions, and all points", "why_tests_cant": "The implementation counts edges crossed by a ray; the equivalence is for all points and arbitrarily many edges.", "anchors": ["orient/planar.py:point_in_region"]}
{"id": "C62", "title": "Whether a geometry is inside of a convex region is decided by its vertices", "statement": "X_in_region for a convex region answers WITHIN, ENCLOSED, COMPONENT or EQUAL exactly if no vertex of X (of its borders if X is areal) is outside, and WITHIN exactly if all of them are interior.", "quantifier": "for all simple convex contours and valid geometries of all kinds, under the conditions of C54", "why_tests_cant": "Relates answers for whole geometries with those for points, for arbitrarily many vertices.", "anchors": ["orient/planar.py:segment_in_region", "orient/planar.py:multisegment_in_region", "orient/planar.py:contour_in_region", "orient/planar.py:region_in_region", "orient/planar.py:point_in_region", "orient/planar.py:region_in_multiregion", "orient/planar.py:region_in_polygon", "orient/planar.py:region_in_multipolygon"]}
{"id": "C63", "title": "Geometries on different sides of a line do not overlap", "statement": "If the vertices of two geometries are on different closed sides of a line, areal geometries are DISJOINT or TOUCH, a linear and an areal one are DISJOINT, TOUCH or COMPONENT; if one of them has no vertex on the line they are DISJOINT.", "quantifier": "for all lines and valid geometries of all kinds, under the conditions of C54", "why_tests_cant": "Quantifies over all lines and geometries; the line is not known to the implementation.", "anchors": ["orient/planar.py:segment_in_region", "orient/planar.py:segment_in_multiregion", "orient/planar.py:segment_in_polygon", "orient/planar.py:segment_in_multipolygon", "orient/planar.py:multisegment_in_region", "orient/planar.py:multisegment_in_multiregion", "orient/planar.py:multisegment_in_polygon", "orient/planar.py:multisegment_in_multipolygon", "orient/planar.py:contour_in_region", "orient/planar.py:contour_in_multiregion", "orient/planar.py:contour_in_polygon", "orient/planar.py:contour_in_multipolygon", "orient/planar.py:region_in_region", "orient/planar.py:region_in_multiregion", "orient/planar.py:region_in_polygon", "orient/planar.py:region_in_multipolygon", "orient/planar.py:multiregion_in_multiregion", "orient/planar.py:multiregion_in_polygon", "orient/planar.py:multiregion_in_multipolygon", "orient/planar.py:polygon_in_polygon", "orient/planar.py:polygon_in_multipolygon", "orient/planar.py:multipolygon_in_multipolygon", "orient/planar.py:segment_in_segment", "orient/planar.py:segment_in_multisegment", "orient/planar.py:segment_in_contour", "orient/planar.py:multisegment_in_multisegment", "orient/planar.py:multisegment_in_contour", "orient/planar.py:contour_in_contour"]}
{"id": "C64", "title": "A region is ENCLOSED by its convex hull or EQUAL to it", "statement": "If all vertices of a convex region are vertices of another one and no vertex of the other one is outside of it, region_in_region of the other one and it is ENCLOSED or EQUAL, never WITHIN, OVERLAP or COMPONENT; for polygons with holes ENCLOSED, COMPONENT or EQUAL.", "quantifier": "for all simple contours and convex ones with these vertices; for all valid polygons with connected interior", "why_tests_cant": "The hull shares arbitrarily many edges and vertices with the region; all of these degenerate cases are to be handled.", "anchors": ["orient/planar.py:region_in_region", "orient/planar.py:region_in_polygon"]}
{"id": "C65", "title": "Arithmetic has to be exact only where vertices are and edges meet", "statement": "If orientations, relations of segments and intersection points calculated by the context are right for the vertices of the operands, the points which are the only common point of two of their edges and the parts of edges between such points, then every function answers (or raises) as with a context that is exact everywhere. In particular a context which rounds intersection points gives the exact answers if the vertices and these points are representable, or if no edges cross and the vertices are representable.", "quantifier": "for all contexts, all ways of rounding and all non-empty geometries without degenerate edges, valid or not, of all kinds (for point queries the point counts as a vertex); for two multisegments, or a multisegment and a contour, dot products and squared distances have to be right as well", "why_tests_cant": "Quantifies over all contexts and ways of rounding; shows that no other points are ever handed to the context in sweeps of any length.", "anchors": ["orient/planar.py:point_in_segment", "orient/planar.py:segment_in_segment", "orient/planar.py:point_in_multisegment", "orient/planar.py:segment_in_multisegment", "orient/planar.py:multisegment_in_multisegment", "orient/planar.py:point_in_contour", "orient/planar.py:segment_in_contour", "orient/planar.py:multisegment_in_contour", "orient/planar.py:contour_in_contour", "orient/planar.py:point_in_region", "orient/planar.py:segment_in_region", "orient/planar.py:multisegment_in_region", "orient/planar.py:contour_in_region", "orient/planar.py:region_in_region", "orient/planar.py:point_in_multiregion", "orient/planar.py:segment_in_multiregion", "orient/planar.py:multisegment_in_multiregion", "orient/planar.py:contour_in_multiregion", "orient/planar.py:region_in_multiregion", "orient/planar.py:multiregion_in_multiregion", "orient/planar.py:point_in_polygon", "orient/planar.py:segment_in_polygon", "orient/planar.py:multisegment_in_polygon", "orient/planar.py:contour_in_polygon", "orient/planar.py:region_in_polygon", "orient/planar.py:multiregion_in_polygon", "orient/planar.py:polygon_in_polygon", "orient/planar.py:point_in_multipolygon", "orient/planar.py:segment_in_multipolygon", "orient/planar.py:multisegment_in_multipolygon", "orient/planar.py:contour_in_multipolygon", "orient/planar.py:region_in_multipolygon", "orient/planar.py:multiregion_in_multipolygon", "orient/planar.py:polygon_in_multipolygon", "orient/planar.py:multipolygon_in_multipolygon"]}
{"id": "C66", "title": "What segment_in_region answers for segments which run along edges", "statement": "segment_in_region always answers with DISJOINT, TOUCH, CROSS, COMPONENT, ENCLOSED or WITHIN. DISJOINT and WITHIN are answered exactly if the segment lies in the exterior or interior. CROSS is answered exactly if the segment crosses an edge or passes a vertex from one side of its two edges to the other, and is right then. COMPONENT is answered exactly if the segment is a part of one edge; if no vertex is on the line of its neighbours, exactly if it is a part of the boundary. If an endpoint is off the contour or the segment does not run along an edge at its end, TOUCH and ENCLOSED are right unless the segment meets both the interior and the exterior.", "quantifier": "for all non-degenerate segments and simple contours; the last sentence if an endpoint is off the contour, or the contour is counterclockwise, or neither endpoint is a vertex; for segment_in_polygon if the holes touch only in vertices and do not touch the border", "why_tests_cant": "Quantifies over all contours and all ways in which segments may run along edges; tests generate segments along edges rarely and the code is wrong for some of them.", "anchors": ["orient/planar.py:segment_in_region", "orient/planar.py:segment_in_polygon", "orient/core/region.py:relate_segment"]}
{"id": "C67", "title": "The effort is two events per segment and per contact of segments", "statement": "With n segments (edges) of both operands and k pairs of a segment and a point inside of it where another segment crosses it or ends, a sweep handles at most 2 (n + k) events, and exactly that many if neither operand overlaps itself and all the segments are passed. If segments meet only in common endpoints these are at most 2 n, in any case at most 2 n + 4 n^2. The documented time complexity O(segments_count * log segments_count) is not kept in general: for each constant there are valid multisegments for which multisegment_in_multisegment handles more events.", "quantifier": "for all registered lists of non-degenerate segments; all the planar functions whose operands are swept use it; the last sentence for all constants", "why_tests_cant": "Is about all inputs of all sizes; tests of answers do not see the effort, and generated operands are small.", "anchors": ["orient/planar.py:multisegment_in_multisegment", "orient/core/events_queue.py:LinearEventsQueue.sweep", "orient/core/events_queue.py:CompoundEventsQueue.sweep"]}
{"id": "C68", "title": "Convex regions are apart iff an edge separates them", "statement": "region_in_region answers DISJOINT or TOUCH for convex regions iff the line of an edge of one of them has no vertices of both on the same side, and DISJOINT iff moreover the other region has no vertex on this line. A linear geometry is answered DISJOINT, TOUCH or COMPONENT for a convex region iff for each of its segments all vertices of the region are on one side of the segment, or an edge of the region separates the segment from it; DISJOINT iff this holds strictly.", "quantifier": "for all simple convex contours of either orientation, with or without superfluous vertices; for segments, multisegments and contours under the conditions of C43 and C34 for segments and multisegments which run along edges", "why_tests_cant": "A geometric criterion which does not mention the sweep, over all pairs of convex regions.", "anchors": ["orient/planar.py:region_in_region", "orient/planar.py:segment_in_region", "orient/planar.py:multisegment_in_region", "orient/planar.py:contour_in_region"]}
{"id": "C69", "title": "Answers do not depend on the containers", "statement": "The sweep keeps mutable events in a priority queue and in a sorted set while it changes the endpoints by which they are compared. Over any priority queue and any sorted set which are correct as long as the comparison is a strict total order of what they store, it emits the same events in the same order and in the same condition and ends in the same way, so each relation is the same. In particular this holds for binary heaps and for search trees which are rebalanced in any way that keeps the order of their elements.", "quantifier": "for all exact contexts, all containers which satisfy the contract, linear and compound queues, all sequences of registrations of segments such that the segments of each operand do not overlap each other, and all abscissas at which the sweep stops", "why_tests_cant": "Mutating elements of a heap or of a red-black tree usually breaks it; that none of the infinitely many sequences of divisions does is an invariant of the whole sweep, and tests only see one version of each of the two libraries.", "anchors": ["orient/core/events_queue.py:EventsQueueKey", "orient/core/events_queue.py:CompoundEventsQueue.sweep", "orient/core/events_queue.py:LinearEventsQueue.sweep", "orient/core/sweep_line.py:SweepLineKey", "orient/core/event.py:LeftEvent.divide"]}
{"id": "C70", "title": "Errors in measured angles", "statement": "Scalar products, distances and the quotients calculated from them influence relations of linear geometries only in that TOUCH may be answered instead of CROSS and the other way round, and only for two multisegments or a multisegment and a contour: however wrong these numbers are, every other answer is that of exact arithmetic. If only quotients are rounded, with a relative error of at most e, and vertices and common points have integer coordinates and squared distances of at most L with 2 e L^3 < 1, then all answers are exact; with double precision coordinates may be any integers from -143 to 143. For integers about 10^8 quotients in double precision do give TOUCH for CROSS.", "quantifier": "for all contexts which are exact for vertices and common points except for scalar products and distances, all functions in the place of division, all pairs of linear geometries with nondegenerate edges; for the second part all rounding functions with the given relative error", "why_tests_cant": "Wrong answers appear only for particular nearly parallel directions, and that no other answer is affected is a claim about all possible errors.", "anchors": ["orient/core/events_queue.py:LinearEventsQueue.detect_crossing_angles", "orient/core/events_queue.py:LinearEventsQueue._to_signed_point_event_squared_cosine", "orient/planar.py:multisegment_in_multisegment", "orient/planar.py:multisegment_in_contour"]}
{"id": "C71", "title": "Which answers survive small moves of the vertices", "statement": "A point answered INTERIOR or EXTERIOR of an areal geometry, or EXTERIOR of a linear one, gets the same answer if it and all vertices are moved by less than some positive distance. For two areal geometries the relation stays the same under all small moves which keep them valid if and only if it is DISJOINT, WITHIN, COVER or OVERLAP; every other relation is changed by arbitrarily small translations of one of the geometries. For a linear and an areal geometry DISJOINT, WITHIN and CROSS stay the same and every other relation is changed by arbitrarily small translations; DISJOINT of linear geometries and CROSS of segments stay the same. Simple contours stay simple, so for regions, and for a contour and a region, nothing has to be supposed about the moved ones.", "quantifier": "for all exact contexts, all valid geometries (under the conditions of C48 and C49, or C43, C44, C46 and C47, with which answers are right), all ways to move each vertex independently", "why_tests_cant": "It speaks of all geometries near to a given one and of arbitrarily small distances.", "anchors": ["orient/planar.py:point_in_region", "orient/planar.py:point_in_multipolygon", "orient/planar.py:region_in_region", "orient/planar.py:multipolygon_in_multipolygon", "orient/planar.py:contour_in_region", "orient/planar.py:segment_in_segment"]}
{"id": "C72", "title": "All wrong answers of polygon_in_polygon and multiregion_in_polygon", "statement": "Two polygons, or a multiregion and a polygon, are in exactly one set-theoretic relation, the functions always answer, and they answer this relation except in the following cases. polygon_in_polygon: WITHIN for ENCLOSED and COVER for ENCLOSES if a hole of one polygon touches the border of the other one from outside while another one is inside of a hole of the other; OVERLAP for TOUCH, only if both interiors are disconnected; ENCLOSED for COMPONENT and ENCLOSES for COMPOSITE, always (these two relations are never answered, and arise only if the interior of the bigger polygon is disconnected). multiregion_in_polygon, only if the interior of the polygon is disconnected: OVERLAP for ENCLOSES; and always ENCLOSED for COMPONENT and EQUAL and OVERLAP for COMPOSITE if the polygon has holes. Every exception occurs; multipolygon_in_multipolygon and its relatives answer correctly in these cases.", "quantifier": "for all exact contexts, all polygons with simple contours whose holes have no common inner points and share no pieces with each other and the border (the interior may be disconnected), all valid multiregions", "why_tests_cant": "It says that there are no other wrong answers for infinitely many operands with unboundedly many holes.", "anchors": ["orient/planar.py:polygon_in_polygon", "orient/planar.py:multiregion_in_polygon", "orient/core/polygon.py:relate_polygon", "orient/core/polygon.py:relate_multiregion"]}
{"id": "C73", "title": "Exact answers of the functions which sweep over the edges", "statement": "Say that edges cross if a point inside of an edge of one operand is inside of an edge of the other and one of the two edges leaves the edges of the other operand there. polygon_in_multipolygon, multiregion_in_multipolygon and multipolygon_in_multipolygon answer OVERLAP if edges cross and the set-theoretic relation otherwise. segment_in_multiregion, contour_in_multiregion, segment_in_multipolygon and contour_in_multipolygon answer CROSS if edges cross and the set-theoretic relation otherwise. multisegment_in_region, _in_multiregion, _in_polygon and _in_multipolygon answer CROSS if edges cross; TOUCH if they do not cross, the multisegment contains the boundary (of each part whose bounding box meets its own) and has inner and outer points; and the set-theoretic relation otherwise. So an answer is wrong if and only if edges cross without inner or outer points (or without an overlap), or the boundary is contained, edges do not cross and there are inner and outer points.", "quantifier": "for all exact contexts, all valid operands, without exceptions", "why_tests_cant": "It is an equivalence for infinitely many operands with unboundedly many edges; the wrong answers have codimension at least one and random operands hardly show them.", "anchors": ["orient/core/events_queue.py:CompoundEventsQueue.detect_intersection", "orient/core/processing.py", "orient/planar.py:multisegment_in_region", "orient/planar.py:segment_in_multiregion", "orient/planar.py:multisegment_in_polygon", "orient/planar.py:segment_in_multipolygon", "orient/planar.py:polygon_in_multipolygon", "orient/planar.py:multipolygon_in_multipolygon"]}
{"id": "C74", "title": "Exact answers about regions, contours and segments and a polygon", "statement": "region_in_polygon answers ENCLOSED if the region is a component of the polygon, and the set-theoretic relation otherwise. contour_in_polygon answers CROSS if the contour has points inside of the border, and outside of it, or its edges cross edges of holes, or it has points inside of holes and points outside of all holes; otherwise ENCLOSED if all of its points are on the boundary, but neither all on the border nor all on the holes; otherwise the set-theoretic relation. segment_in_polygon answers the same about segments if segment_in_region is right about the border. So an answer is wrong if and only if one of the named exceptions applies.", "quantifier": "for all exact contexts, all simple regions and contours, all nondegenerate segments, all valid polygons", "why_tests_cant": "It is an equivalence for infinitely many operands with unboundedly many holes; the exceptions need holes which touch the border or each other and random polygons hardly show them.", "anchors": ["orient/core/polygon.py:relate_region", "orient/core/polygon.py:relate_contour", "orient/core/polygon.py:relate_segment", "orient/planar.py:region_in_polygon", "orient/planar.py:contour_in_polygon", "orient/planar.py:segment_in_polygon"]}
{"id": "C75", "title": "Exact answers of segment_in_region", "statement": "segment_in_region answers CROSS if the segment crosses an edge at an inner point of both or goes through a vertex between the two edges which meet there; COMPONENT if it is a part of an edge; WITHIN or DISJOINT if it does not meet the contour. Otherwise, if an endpoint is not on the contour, the answer is TOUCH or ENCLOSED according to whether the first such endpoint is outside or inside. If both endpoints are on the contour, the answer is TOUCH if the segment goes outwards from its end, or from its start unless that is a vertex, not the last one, at which the contour does not turn left; and ENCLOSED else. So the answer is wrong if and only if the segment has inner and outer points although it does not cross edges, or it is a part of the contour but not of a single edge, or it touches the region and the rule above says ENCLOSED.", "quantifier": "for all exact contexts, all nondegenerate segments and simple contours, except segments with both endpoints on a clockwise contour, one of them a vertex", "why_tests_cant": "It is an equivalence for infinitely many operands with unboundedly many vertices; the wrong answers need segments which run along edges or have both endpoints on the contour.", "anchors": ["orient/core/region.py:relate_segment", "orient/planar.py:segment_in_region"]}
{"id": "C76", "title": "Exact answers of polygon_in_polygon and multiregion_in_polygon", "statement": "polygon_in_polygon answers ENCLOSED for COMPONENT and ENCLOSES for COMPOSITE; OVERLAP for TOUCH exactly if the regions in the two borders have common inner points while no hole contains the border of the other polygon; WITHIN for ENCLOSED exactly if the border of the first polygon is strictly inside of the border of the second one, some holes of the second one are inside of the border of the first one, and all of those are strictly inside of its holes; COVER for ENCLOSES in the mirrored case; and the relation of the two polygons in all other cases. multiregion_in_polygon answers the relation if the polygon has no holes; otherwise it answers ENCLOSED for COMPONENT and EQUAL, OVERLAP for COMPOSITE, OVERLAP for ENCLOSES exactly if no single region contains the border of the polygon, and the relation in all other cases.", "quantifier": "for all exact contexts, all valid polygons and all valid multiregions which are not empty", "why_tests_cant": "It is an equivalence for infinitely many operands; the wrong answers need holes which touch borders or other holes at points.", "anchors": ["orient/core/polygon.py:relate_polygon", "orient/core/polygon.py:relate_multiregion", "orient/planar.py:polygon_in_polygon", "orient/planar.py:multiregion_in_polygon"]}
{"id": "C77", "title": "Exchanged polygons and multipolygons, without conditions", "statement": "polygon_in_polygon(right, left) is the complement of polygon_in_polygon(left, right) and likewise for multipolygons, whether the answers are right or not; a polygon and a multipolygon are EQUAL to themselves.", "quantifier": "for all exact contexts, all pairs of valid polygons and all pairs of valid multipolygons which are not empty", "why_tests_cant": "All pairs of inputs; the two calls run different branches, and the conditions of C50 exclude the operands for which wrong answers are known.", "anchors": ["orient/core/polygon.py:relate_polygon", "orient/core/multipolygon.py:relate_multipolygon", "orient/planar.py:polygon_in_polygon", "orient/planar.py:multipolygon_in_multipolygon"]}
{"id": "C78", "title": "Affine bijections do not change answers, without conditions", "statement": "Applying the same affine map with non-zero determinant to both operands does not change the answers of multisegment_in_region, multisegment_in_polygon, segment_in_multiregion, segment_in_multipolygon, contour_in_polygon, contour_in_multiregion, contour_in_multipolygon, region_in_polygon, multiregion_in_polygon, multiregion_in_multipolygon, polygon_in_polygon, polygon_in_multipolygon and multipolygon_in_multipolygon, whether they are right or not. multisegment_in_multiregion and multisegment_in_multipolygon are not changed by maps which keep or exchange the directions of the axes, but by other ones.", "quantifier": "for all exact contexts, all affine maps with non-zero determinant and all valid operands which are not empty", "why_tests_cant": "All maps and all operands, including those for which wrong answers are known; the order in which the sweep visits edges is changed by most maps.", "anchors": ["orient/planar.py:multisegment_in_region", "orient/planar.py:multisegment_in_multiregion", "orient/planar.py:contour_in_polygon", "orient/planar.py:polygon_in_polygon", "orient/planar.py:multipolygon_in_multipolygon", "orient/core/multiregion.py:_relate_multisegment"]}
{"id": "C79", "title": "How operands are written down does not matter, without conditions", "statement": "The answers of all functions with the exceptions of segment_in_region, segment_in_polygon and multisegment_in_multisegment do not depend on the order and the directions of segments, the first vertices and the orientations of contours, borders and holes, and the order of holes, regions and polygons, whether they are right or not. The answers of segment_in_region and segment_in_polygon do.", "quantifier": "for all exact contexts and all valid operands which are not empty", "why_tests_cant": "All operands and all ways to write them down, including those for which wrong answers are known; the loops over holes and components end at the first decisive one.", "anchors": ["orient/planar.py:segment_in_segment", "orient/planar.py:contour_in_contour", "orient/planar.py:multisegment_in_multipolygon", "orient/planar.py:polygon_in_polygon", "orient/core/polygon.py:relate_polygon", "orient/core/polygon.py:relate_multiregion", "orient/core/region.py:relate_segment"]}
{"id": "C80", "title": "Polygons and their parts, without conditions", "statement": "The border of a polygon as a region ENCLOSES it (EQUAL without holes), holes TOUCH it, alone and together, the polygon is ENCLOSED by the polygon without its holes, border and holes as contours are COMPONENT. A polygon of a multipolygon is COMPONENT of it, or EQUAL if alone, unless one of its edges crosses an edge of another polygon, and then OVERLAP is answered.", "quantifier": "for all exact contexts, all valid polygons and multipolygons", "why_tests_cant": "All polygons, including those with disconnected interiors, for which wrong answers are known; that edges of valid multipolygons may cross is easily overlooked.", "anchors": ["orient/core/polygon.py:relate_region", "orient/core/polygon.py:relate_contour", "orient/core/polygon.py:relate_multiregion", "orient/core/polygon.py:relate_polygon", "orient/core/multipolygon.py:relate_polygon", "orient/planar.py:polygon_in_multipolygon"]}
{"id": "C81", "title": "Exactly what is answered about two multisegments", "statement": "EQUAL, COMPONENT, COMPOSITE, OVERLAP, DISJOINT say what they mean of the points of the operands. Without a common piece, CROSS is answered when segments of the operands have a common inner point, or at some point two ways of the first operand are separated by the way of the second operand which has the widest angle to its way met first by the sweep, and the way with the widest angle to that; otherwise TOUCH is answered. So the order and the directions of the segments do not matter, nor do translations and scalings with positive factors. Rotations, reflections, and dividing a segment in two may change TOUCH to CROSS.", "quantifier": "for all exact contexts, all valid non-empty multisegments", "why_tests_cant": "Which ways are compared depends on the order in which the sweep meets them, which depends on all of the events before; only few inputs make a difference.", "anchors": ["orient/planar.py:multisegment_in_multisegment", "orient/core/multisegment.py:relate_multisegment", "orient/core/events_queue.py:LinearEventsQueue.detect_crossing_angles", "orient/core/events_queue.py:LinearEventsQueue.sweep"]}
{"id": "C82", "title": "What answers say for certain about all valid operands", "statement": "Whatever else may be wrong with an answer: DISJOINT is answered exactly when no point belongs to both operands, by every function which relates two geometries. A linear geometry is answered to be WITHIN an areal one exactly when all of its points are interior to it. EQUAL, COMPONENT, ENCLOSED, WITHIN are answered only for parts of the second operand, EQUAL, COMPOSITE, ENCLOSES, COVER of areal operands only if the second one is a part of the first one; most functions answer so for all parts. Areal operands inside of each other are answered WITHIN or COVER, and TOUCH is never answered about areal operands with common inner points. So answers can be combined: parts of parts are answered to be parts, parts of what is DISJOINT with a geometry are DISJOINT with it.", "quantifier": "for all exact contexts, all valid operands of all 28 functions which relate two geometries other than points, multis not empty where they are empty sets", "why_tests_cant": "The wrong answers of several functions are known (C25, C26, C34, C36, C72); that none of them ever says that touching geometries are DISJOINT is a statement about all inputs.", "anchors": ["orient/planar.py:segment_in_segment", "orient/planar.py:segment_in_region", "orient/planar.py:contour_in_contour", "orient/planar.py:polygon_in_polygon", "orient/planar.py:multipolygon_in_multipolygon", "orient/core/region.py:relate_segment", "orient/core/polygon.py:_relate_polygon"]}
{"id": "C83", "title": "Exactly what is answered about all segments and all simple contours as regions", "statement": "For a segment with both endpoints on a contour listed clockwise and one of them a vertex, `segment_in_region` takes for the vertex after p, the one with index i, the vertex with index n - 3 - i (or the last vertex). If nothing is crossed and the segment is no part of an edge, TOUCH is answered exactly if an endpoint is outside or the segment leaves one of its endpoints on the outer side of p and these two vertices, as said in `SeemsOutside`; nothing is ever found for the last vertex. Together with C75 this says exactly what is answered for all segments and all simple contours, and exactly when the answer is right.", "quantifier": "for all exact contexts, all nondegenerate segments, all simple contours listed in either direction", "why_tests_cant": "Which vertex is misread depends on the number of vertices and the position at which the list begins, so tests with triangles or squares see nothing; an exact condition for all contours can only be proved.", "anchors": ["orient/planar.py:segment_in_region", "orient/core/region.py:relate_segment"]}
{"id": "C84", "title": "What may be done to a segment and a region without changing the answer", "statement": "`segment_in_region` and `segment_in_polygon` answer the same after an affine map which keeps the orientation (translations, rotations, scalings, shears), however the contour is listed. After any affine bijection and with any other list of the same contour they answer the same if both lists are counterclockwise, provided that the segment does not start at a vertex at which the contour does not turn left or the last vertex remains the same; directions and lists do not matter at all if an endpoint is off the contour or both endpoints are no vertices. Holes may be listed in any way.", "quantifier": "for all exact contexts, all nondegenerate segments, all simple contours and all valid polygons, all affine bijections", "why_tests_cant": "These two functions are the only ones about areas whose answers depend on where the list of vertices begins; which changes are harmless is a statement about all maps and all lists.", "anchors": ["orient/planar.py:segment_in_region", "orient/planar.py:segment_in_polygon", "orient/core/region.py:relate_segment", "orient/core/polygon.py:relate_segment"]}
{"id": "C85", "title": "Segments in convex regions are related rightly", "statement": "`segment_in_region` answers the relation of the segment to the interior, the boundary and the exterior, for every segment, if the contour is convex, has no vertex on a line with its neighbours, and is listed counterclockwise or has at most four vertices; so always for triangles. `segment_in_polygon` does the same if the border is such a contour, holes do not touch it, and they touch each other in common vertices only.", "quantifier": "for all exact contexts, all nondegenerate segments (also along edges, through vertices, between vertices), all simple convex contours in the statement, all valid polygons with such a border", "why_tests_cant": "The function is wrong about other contours (C13, C83); that none of its bugs concerns convex contours is a statement about all convex contours and all segments.", "anchors": ["orient/planar.py:segment_in_region", "orient/planar.py:segment_in_polygon", "orient/core/region.py:relate_segment", "orient/core/polygon.py:relate_segment"]}
{"id": "C86", "title": "Ways around the wrong answers about segments, regions and polygons", "statement": "A single segment given as a multisegment is related rightly to every region, in all four forms of the region; so is a segment to a region given as a multiregion or a multipolygon. So an answer of `segment_in_region` is right exactly if `multisegment_in_region` gives the same. With a polygon `multisegment_in_polygon`, `segment_in_multipolygon` and `multisegment_in_multipolygon` give the same answer about one segment. A region is related rightly to every polygon given as a multipolygon; a polygon, a multiregion or a contour is if no edges of the polygon (or of the other areal operand) meet except in common endpoints, also where the functions for polygons are wrong. The relation of any segments together to a region, also of overlapping ones and of those which contain the boundary, follows from the answers about each of them. TOUCH of two contours is right unless `contour_in_region` answers CROSS, and then CROSS is right.", "quantifier": "for all exact contexts, nondegenerate segments, simple contours, valid polygons and multiregions, with no condition on orientation, connectedness or common pieces", "why_tests_cant": "`segment_in_region`, `region_in_polygon`, `polygon_in_polygon` are known to be wrong about some operands (C13, C25, C26, C72); that other functions are right about all of them is a statement about all operands.", "anchors": ["orient/planar.py:multisegment_in_region", "orient/planar.py:segment_in_multiregion", "orient/planar.py:segment_in_multipolygon", "orient/planar.py:multisegment_in_polygon", "orient/planar.py:region_in_multipolygon", "orient/planar.py:polygon_in_multipolygon", "orient/core/region.py:relate_multisegment", "orient/core/multipolygon.py:relate_polygon"]}
{"id": "C87", "title": "Exactly what `segment_in_polygon` answers", "statement": "For every segment and every valid polygon, whatever the orientation of the border, the answer of `segment_in_polygon` is the only one which satisfies: CROSS if the segment crosses an edge of the border or passes it at a vertex; COMPONENT if it is a part of an edge of the border; DISJOINT if it is outside of the border; TOUCH if it meets the border otherwise and looks as if it went outwards; otherwise CROSS if it crosses an edge of a hole or has points both inside and outside of the holes; and else DISJOINT in a hole, TOUCH in a closed hole, COMPONENT on the boundaries of the holes, ENCLOSED if it meets the holes from outside or meets the border, WITHIN if it meets nothing.", "quantifier": "for all exact contexts, nondegenerate segments and valid polygons", "why_tests_cant": "The answer depends on the order of vertices, on the orientation and on the position of the vertices of the border; the statement covers all of them, also those about which the answer is wrong.", "anchors": ["orient/planar.py:segment_in_polygon", "orient/core/polygon.py:relate_segment", "orient/core/region.py:relate_segment", "orient/core/multiregion.py:relate_segment"]}
{"id": "C88", "title": "Linear geometries and their pieces, whatever the areal geometry is like", "statement": "The answer about a contour and a multiregion, or a polygon given as a multipolygon, is the join of the answers about its edges; the answer about a multisegment and a multiregion or a polygon is the join of the answers about its segments, unless it contains the boundary of one of the regions or the whole boundary of the polygon: CROSS if one piece is answered CROSS or there are pieces on both sides, DISJOINT, WITHIN, COMPONENT if all pieces are, TOUCH or ENCLOSED otherwise. This holds also if the answers about pieces are wrong; with more than one polygon in a multipolygon it does not hold.", "quantifier": "for all exact contexts, simple contours, valid multisegments, valid multiregions and polygons, with no condition on where edges of regions or holes meet", "why_tests_cant": "One sweep is made over all edges together, with groups of events at each point; that it finds the same as one sweep for each edge is a statement about all configurations of edges at a point.", "anchors": ["orient/planar.py:contour_in_multiregion", "orient/planar.py:segment_in_multiregion", "orient/planar.py:multisegment_in_multiregion", "orient/planar.py:multisegment_in_polygon", "orient/planar.py:contour_in_multipolygon", "orient/core/processing.py:process_linear_compound_queue", "orient/core/events_queue.py:complete_events_relations"]}
{"id": "C89", "title": "It does not matter by which kind of linear geometry segments are given", "statement": "As second operand of `multisegment_in_multisegment` the edges of a contour are the same as the contour for `multisegment_in_contour`. Two contours are always related rightly by `multisegment_in_contour` if the first one is given by its edges, also where `contour_in_contour` answers TOUCH instead of CROSS. A single segment given as a multisegment is always related rightly to a contour; `segment_in_contour` answers the same, except OVERLAP instead of COMPONENT for segments along several edges, and `segment_in_multisegment` with the edges answers the same. For two single segments `multisegment_in_multisegment` answers the same as `segment_in_segment`, and `segment_in_multisegment` too except COMPONENT instead of EQUAL. About a segment and a multisegment, `multisegment_in_multisegment` answers the same as `segment_in_multisegment`, except that it may answer TOUCH instead of CROSS where more than two segments meet.", "quantifier": "for all exact contexts, non-degenerate segments, simple contours and valid multisegments", "why_tests_cant": "The functions are different programs (loops over segments with a state, two kinds of sweep); that they agree for all operands, and that separated directions at a point are the same as points on both sides of a contour, quantifies over all shapes.", "anchors": ["orient/planar.py:contour_in_contour", "orient/planar.py:multisegment_in_contour", "orient/planar.py:multisegment_in_multisegment", "orient/planar.py:segment_in_contour", "orient/planar.py:segment_in_multisegment", "orient/planar.py:segment_in_segment", "orient/core/contour.py:relate_multisegment", "orient/core/multisegment.py:relate_segment"]}
{"id": "C90", "title": "The relation to a contour and the relation to the region in it fit together", "statement": "For a segment, DISJOINT by `segment_in_contour` goes with DISJOINT or WITHIN by `segment_in_region`, TOUCH with TOUCH or ENCLOSED, CROSS with CROSS, COMPONENT with COMPONENT and OVERLAP with TOUCH, ENCLOSED or CROSS. For a multisegment, DISJOINT by `multisegment_in_contour` goes with DISJOINT, WITHIN or CROSS by `multisegment_in_region`, CROSS with CROSS, EQUAL and COMPONENT with COMPONENT, and TOUCH, OVERLAP and COMPOSITE with TOUCH, ENCLOSED or CROSS. For a contour, DISJOINT by `contour_in_contour` goes with DISJOINT or WITHIN by `contour_in_region`, CROSS with CROSS, EQUAL with COMPONENT, and TOUCH and OVERLAP with TOUCH, ENCLOSED or CROSS. This holds also where one of the answers is wrong; no pair can be left out. If the contour is given by its edges to `multisegment_in_contour`, TOUCH goes with TOUCH or ENCLOSED only.", "quantifier": "for all exact contexts, non-degenerate segments, non-empty valid multisegments and simple contours", "why_tests_cant": "The answers about the contour and about the region come from different programs; that no other pair of answers occurs, in particular that CROSS always means inner and outer points, quantifies over all shapes.", "anchors": ["orient/planar.py:segment_in_contour", "orient/planar.py:segment_in_region", "orient/planar.py:multisegment_in_contour", "orient/planar.py:multisegment_in_region", "orient/planar.py:contour_in_contour", "orient/planar.py:contour_in_region", "orient/core/contour.py:relate_segment", "orient/core/region.py:relate_segment"]}
{"id": "C91", "title": "The relation of two regions is told by the relations of their boundaries", "statement": "`contour_in_region(a, b)` and `contour_in_region(b, a)` together determine `region_in_region(a, b)`, and are determined by it: DISJOINT and DISJOINT mean DISJOINT, TOUCH and TOUCH mean TOUCH, CROSS and CROSS mean OVERLAP, COMPONENT and COMPONENT mean EQUAL, DISJOINT and WITHIN mean COVER, WITHIN and DISJOINT mean WITHIN, TOUCH and ENCLOSED mean ENCLOSES, ENCLOSED and TOUCH mean ENCLOSED; other pairs do not occur. If `contour_in_contour` answers DISJOINT, any point of each contour tells by `point_in_region` which of DISJOINT, WITHIN and COVER `region_in_region` answers.", "quantifier": "for all exact contexts, simple contours and points of them", "why_tests_cant": "It says that two curves cannot be in other relations to the areas inside of each other, which rests on the Jordan curve theorem for all polygons, and compares answers of different sweeps.", "anchors": ["orient/planar.py:contour_in_region", "orient/planar.py:region_in_region", "orient/planar.py:contour_in_contour", "orient/planar.py:point_in_region", "orient/core/region.py:relate_contour", "orient/core/region.py:relate_region"]}
{"id": "C92", "title": "The relation of a multisegment to a linear geometry is restricted by the relations of its parts", "statement": "If the segments of a multisegment are divided into two parts, the answer of `multisegment_in_contour` about all of them is in the list which Relation.linearUnite gives for the answers about the parts: for example DISJOINT iff both are DISJOINT, CROSS if one is CROSS and the other one shares no piece with the contour, TOUCH for TOUCH and DISJOINT, TOUCH or CROSS for TOUCH and TOUCH, COMPONENT or EQUAL for COMPONENT and COMPONENT, COMPOSITE if one is EQUAL or COMPOSITE; pairs which are not listed do not occur, and no entry can be left out. For `multisegment_in_multisegment` the same holds up to TOUCH and CROSS.", "quantifier": "for all exact contexts, valid multisegments divided into two non-empty parts, simple contours and non-empty valid multisegments", "why_tests_cant": "Three sweeps over different sets of segments are compared; that the table is complete quantifies over all shapes and all divisions.", "anchors": ["orient/planar.py:multisegment_in_contour", "orient/planar.py:multisegment_in_multisegment", "orient/core/contour.py:relate_multisegment", "orient/core/multisegment.py:relate_multisegment"]}
{"id": "C93", "title": "Relations of three linear geometries fit together", "statement": "If `multisegment_in_multisegment` answers r about a and b, q about b and c, and s about a and c, then s is in the list which Relation.linearCompose gives for r and q, TOUCH and CROSS being taken as one: for example COMPONENT and COMPONENT give COMPONENT, COMPONENT and DISJOINT give DISJOINT, EQUAL and q give q, OVERLAP and COMPONENT give OVERLAP or COMPONENT, COMPONENT and TOUCH give DISJOINT or TOUCH. The same holds with `multisegment_in_contour` and `contour_in_contour` if the last one, the last two or all three geometries are contours, with `segment_in_segment` about three segments, and with `segment_in_multisegment` if the first one or two geometries are segments and the multisegments have at least two. No entry of the table can be left out.", "quantifier": "for all exact contexts, non-empty valid multisegments, simple contours and nondegenerate segments", "why_tests_cant": "Three sweeps over three pairs of geometries are compared; that the table is complete quantifies over all triples.", "anchors": ["orient/planar.py:multisegment_in_multisegment", "orient/planar.py:multisegment_in_contour", "orient/planar.py:contour_in_contour", "orient/core/multisegment.py:relate_multisegment", "orient/core/contour.py:relate_multisegment", "orient/core/contour.py:relate_contour"]}
{"id": "C94", "title": "The relation to a polygon is restricted by the relations to its border and to its holes", "statement": "The answer about a geometry and a polygon with holes is in the list which Relation.carve (for linear geometries Relation.carveLinear) gives for the answer about the geometry and the region in the border and the answer about the geometry and the regions in the holes as a multiregion: for example WITHIN the border and DISJOINT with the holes gives WITHIN, WITHIN and WITHIN gives DISJOINT, WITHIN and EQUAL gives TOUCH, COVER and COVER gives COVER, EQUAL and COVER gives ENCLOSES, and a linear geometry which is ENCLOSED by the border and COMPONENT of the holes is COMPONENT. Pairs which are not listed do not occur, in particular nothing is COMPONENT of the region in a border without being EQUAL. With the polygon as the left operand the same holds for the complements. For a region and a polygon given as a multipolygon this holds without conditions.", "quantifier": "for all exact contexts, valid geometries and valid polygons with holes; for regions and a polygon given as a multipolygon without conditions, otherwise under the conditions of C54", "why_tests_cant": "The three answers come from different sweeps, and the table quantifies over all shapes, numbers and positions of holes.", "anchors": ["orient/planar.py:region_in_polygon", "orient/planar.py:region_in_multipolygon", "orient/planar.py:region_in_region", "orient/planar.py:region_in_multiregion", "orient/core/polygon.py:relate_region", "orient/core/multipolygon.py:relate_region", "orient/core/polygon.py:relate_multisegment"]}
{"id": "C95", "title": "Linear geometries off a boundary are related by one point of each segment", "statement": "If a segment, multisegment or contour has no point on the boundary of a region, multiregion, polygon or multipolygon (or if the functions say DISJOINT about it and each contour of the areal geometry), then the answer about the two is told by point_in_* for any choice of points, one on each segment of the multisegment or one on the segment or contour: WITHIN if all of them are INTERIOR, DISJOINT if all of them are EXTERIOR, CROSS otherwise, and CROSS occurs only for multisegments. This holds for all twelve functions and for all valid operands, without the conditions under which the functions are right in general.", "quantifier": "for all exact contexts, valid linear geometries, valid areal geometries and choices of points", "why_tests_cant": "It says that one point stands for all points of a segment or contour, for all geometries of unbounded size, and connects the sweeps with the ray casting for points.", "anchors": ["orient/planar.py:segment_in_region", "orient/planar.py:segment_in_polygon", "orient/planar.py:multisegment_in_region", "orient/planar.py:multisegment_in_multiregion", "orient/planar.py:multisegment_in_polygon", "orient/planar.py:multisegment_in_multipolygon", "orient/planar.py:contour_in_polygon", "orient/planar.py:point_in_polygon", "orient/core/polygon.py:relate_contour"]}
{"id": "C96", "title": "Areal geometries with boundaries apart are related by one point of each contour", "statement": "If the boundaries of two regions, multiregions, polygons or multipolygons have no common points (or if contour_in_contour says DISJOINT about each contour of one and each contour of the other), then the answer about the two geometries is told by point_in_* for any choice of points, one on each contour of each of them: if all points of the second one are EXTERIOR to the first one, the answer is DISJOINT, WITHIN or OVERLAP as all points of the first one are EXTERIOR to the second one, all are INTERIOR to it or neither; if all points of the first one are EXTERIOR to the second one and all points of the second one INTERIOR to the first one, the answer is COVER; otherwise it is OVERLAP. This holds for all ten functions and for all valid operands, without the conditions under which the functions are right in general.", "quantifier": "for all exact contexts, valid areal geometries and choices of points", "why_tests_cant": "It says that a few points stand for all points of areas with any number of parts, holes and vertices, and connects the sweeps with the ray casting for points.", "anchors": ["orient/planar.py:region_in_region", "orient/planar.py:region_in_polygon", "orient/planar.py:multiregion_in_polygon", "orient/planar.py:polygon_in_polygon", "orient/planar.py:polygon_in_multipolygon", "orient/planar.py:multipolygon_in_multipolygon", "orient/planar.py:contour_in_contour", "orient/planar.py:point_in_polygon", "orient/core/polygon.py:relate_polygon"]}
