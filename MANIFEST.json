{
 "claims": [
  {
   "property": "C01",
   "status": "proved",
   "theorems": [
    "Orient.Props.C01_point_in_segment"
   ],
   "note": "for every exact context"
  },
  {
   "property": "C02",
   "status": "proved",
   "theorems": [
    "Orient.Props.C02_segment_in_segment",
    "Orient.Props.C02_segment_in_segment_symmetries"
   ],
   "note": "nondegenerate segments"
  },
  {
   "property": "C03",
   "status": "proved",
   "theorems": [
    "Orient.Props.C03_point_in_multisegment",
    "Orient.Props.C03_point_in_multisegment_representation"
   ],
   "note": "any list of segments"
  },
  {
   "property": "C04",
   "status": "proved",
   "theorems": [
    "Orient.Props.C04_subset",
    "Orient.Props.C04_superset",
    "Orient.Props.C05_segment_in_multisegment",
    "Orient.Props.C05_single"
   ],
   "note": "exact context; for a single piece equal to the segment the code answers COMPONENT, which the converse of the superset part excludes by asking for two pieces"
  },
  {
   "property": "C05",
   "status": "proved",
   "theorems": [
    "Orient.Props.C05_segment_in_multisegment",
    "Orient.Props.C05_single"
   ],
   "note": "iff characterisation of every answer by sets of points, for at least two pieces; the one-piece case is stated separately"
  },
  {
   "property": "C06",
   "status": "proved",
   "theorems": [
    "Orient.Props.C06_representation"
   ],
   "note": ""
  },
  {
   "property": "C07",
   "status": "proved",
   "theorems": [
    "Orient.Props.C07_point_in_contour",
    "Orient.Props.C07_point_in_contour_representation"
   ],
   "note": "any list of vertices"
  },
  {
   "property": "C08",
   "status": "proved",
   "theorems": [
    "Orient.Props.C08_segment_in_contour",
    "Orient.Props.C08_cross",
    "Orient.Props.C08_component"
   ],
   "note": "exact context; the function never raises for simple contours"
  },
  {
   "property": "C09",
   "status": "proved",
   "theorems": [
    "Orient.Props.C09_representation"
   ],
   "note": ""
  },
  {
   "property": "C10",
   "status": "proved",
   "theorems": [
    "Orient.Props.C10_point_in_region",
    "Orient.Props.C10_point_in_region_unique"
   ],
   "note": "any closed polyline, also self-intersecting"
  },
  {
   "property": "C11",
   "status": "proved",
   "theorems": [
    "Orient.Props.C11_constant_along_polylines",
    "Orient.Props.C11_exterior_outside_box"
   ],
   "note": "any closed polyline"
  },
  {
   "property": "C12",
   "status": "proved",
   "theorems": [
    "Orient.Props.C12_representation",
    "Orient.Props.C12_affine"
   ],
   "note": "all nonsingular affine maps, which include the listed ones"
  },
  {
   "property": "C13",
   "status": "partial",
   "theorems": [
    "Orient.Props.C43_segment_in_region",
    "Orient.Props.C43_segment_in_region_iff",
    "Orient.Props.C29_edge_of_region",
    "Orient.Props.C66_right",
    "Orient.Props.C66_one_side",
    "Orient.Props.C13_counterexample_overlap",
    "Orient.Props.C13_counterexample_outer_diagonal",
    "Orient.Props.C13_counterexample_inner_diagonal",
    "Orient.Props.C13_counterexample_component",
    "Orient.Props.C13_counterexample_bridge",
    "Orient.Props.C13_counterexample_elif"
   ],
   "note": "The property as stated is false of the code: six machine-checked counterexamples (a segment running along an edge from the interior to the exterior, an outer and an inner diagonal of clockwise contours, a segment of two edges on a line, segments which run along edges at both ends or at the second one). The parts that hold are C43 (segments without common pieces with the contour, if the contour is counterclockwise or an endpoint is off it or no endpoint is a vertex) and C66 (segments along edges). C75 says what is answered, and when it is wrong."
  },
  {
   "property": "C14",
   "status": "proved",
   "theorems": [
    "Orient.Props.C14_point_in_multiregion_first",
    "Orient.Props.C14_point_in_multiregion",
    "Orient.Props.C14_valid"
   ],
   "note": "the first theorem has no hypothesis on the regions"
  },
  {
   "property": "C15",
   "status": "proved",
   "theorems": [
    "Orient.Props.C15_point_in_polygon_interior",
    "Orient.Props.C15_point_in_polygon",
    "Orient.Props.C15_valid"
   ],
   "note": "the first theorem has no hypothesis on the holes"
  },
  {
   "property": "C16",
   "status": "proved",
   "theorems": [
    "Orient.Props.C16_point_in_multipolygon_first",
    "Orient.Props.C16_point_in_multipolygon",
    "Orient.Props.C16_valid"
   ],
   "note": "the first theorem has no hypothesis on the polygons"
  },
  {
   "property": "C17",
   "status": "proved",
   "theorems": [
    "Orient.Props.C17_multisegment_in_multisegment",
    "Orient.Props.C17_multisegment_in_contour"
   ],
   "note": "Also for multisegment_in_contour. Operands are nonempty; their own segments may cross or (then ValueError) overlap."
  },
  {
   "property": "C18",
   "status": "proved",
   "theorems": [
    "Orient.Props.C18_multisegment_in_multisegment",
    "Orient.Props.C18_multisegment_in_multisegment_iff",
    "Orient.Props.C18_multisegment_in_contour"
   ],
   "note": "For operands whose own segments are non-degenerate and pairwise share at most one point, the sweep always answers and the answer is the relation of the sets of points (TOUCH and CROSS are told apart in C30). The proof establishes the invariant of the sweep line: the pieces on it are totally ordered by the sweep-line key, neighbours are resolved, so no common point is missed. multisegment_in_contour is covered as well."
  },
  {
   "property": "C19",
   "status": "proved",
   "theorems": [
    "Orient.Props.C19_sweep_terminates"
   ],
   "note": "The loop makes at most 2n^3+4n^2+2n+1 iterations for n registered segments on both queues, whatever stop_x; together with C20 every sweep-based relation ends with an answer or ValueError."
  },
  {
   "property": "C20",
   "status": "proved",
   "theorems": [
    "Orient.Props.C20_multisegment_in_multisegment",
    "Orient.Props.C20_multisegment_in_contour",
    "Orient.Props.C20_contour_in_contour",
    "Orient.Props.C20_multisegment_in_region",
    "Orient.Props.C20_contour_in_region",
    "Orient.Props.C20_region_in_region",
    "Orient.Props.C20_segment_in_multiregion",
    "Orient.Props.C20_multisegment_in_multiregion",
    "Orient.Props.C20_contour_in_multiregion",
    "Orient.Props.C20_region_in_multiregion",
    "Orient.Props.C20_multiregion_in_multiregion",
    "Orient.Props.C20_multisegment_in_polygon",
    "Orient.Props.C20_contour_in_polygon",
    "Orient.Props.C20_region_in_polygon",
    "Orient.Props.C20_multiregion_in_polygon",
    "Orient.Props.C20_polygon_in_polygon",
    "Orient.Props.C20_segment_in_multipolygon",
    "Orient.Props.C20_multisegment_in_multipolygon",
    "Orient.Props.C20_contour_in_multipolygon",
    "Orient.Props.C20_region_in_multipolygon",
    "Orient.Props.C20_multiregion_in_multipolygon",
    "Orient.Props.C20_polygon_in_multipolygon",
    "Orient.Props.C20_multipolygon_in_multipolygon",
    "Orient.Props.RaisesOnlyForOverlaps.exists_ok"
   ],
   "note": "All 23 relations computed by sweeping. segment_in_contour, segment_in_region and segment_in_polygon do not (only) sweep and are not covered."
  },
  {
   "property": "C21",
   "status": "proved",
   "theorems": [
    "Orient.Props.C21_linear_linear",
    "Orient.Props.C21_linear_compound",
    "Orient.Props.C21_compound_compound",
    "Orient.Props.C21_locations_linear"
   ],
   "note": "for every context; segment_in_segment needs an exact context and non-degenerate segments"
  },
  {
   "property": "C22",
   "status": "proved",
   "theorems": [
    "Orient.Props.C22_disjoint_boxes",
    "Orient.Props.C22_boxes",
    "Orient.Props.C22_multiregion",
    "Orient.Props.C22_multipolygon_region",
    "Orient.Props.C22_multipolygon_polygon",
    "Orient.Props.C22_linear_multiregion",
    "Orient.Props.C22_linear_multipolygon"
   ],
   "note": "Boxes which do not meet are boxes of sets without common points; if r is the relation with the parts which are kept then correctSkipped false r is the relation with all parts; linear operands need no correction."
  },
  {
   "property": "C23",
   "status": "partial",
   "theorems": [
    "Orient.Props.C23_segments",
    "Orient.Props.C23_regions",
    "Orient.Props.C23_contours",
    "Orient.Props.C23_multiregions",
    "Orient.Props.C23_polygons",
    "Orient.Props.C23_multipolygons",
    "Orient.Props.C23_multisegments_partial",
    "Orient.Props.C23_counterexample_multisegments",
    "Orient.Props.C23_example",
    "Orient.Props.C77_polygons",
    "Orient.Props.C77_multipolygons"
   ],
   "note": "Proved for segments, contours, regions, multiregions, polygons and multipolygons (C50, C77). False for multisegments: C23_counterexample_multisegments is answered TOUCH one way and CROSS the other way; no other answers can be exchanged (C23_multisegments_partial)."
  },
  {
   "property": "C24",
   "status": "proved",
   "theorems": [
    "Orient.Props.C24_same_cycle",
    "Orient.Props.C24_shortcut_sound",
    "Orient.Props.C24_shortcut_iff"
   ],
   "note": "same cycle up to rotation and reversal; simple contours, exact context"
  },
  {
   "property": "C25",
   "status": "partial",
   "theorems": [
    "Orient.Props.C25_polygon_in_polygon",
    "Orient.Props.C25_polygon_in_polygon_iff",
    "Orient.Props.C25_example",
    "Orient.Props.C25_counterexample"
   ],
   "note": "For polygons with connected interiors (C42 gives a criterion) polygon_in_polygon always answers the right relation except for one confirmed bug: WITHIN is answered for ENCLOSED (COVER for ENCLOSES) if a hole of the outer polygon touches the border of the inner one from outside while another one is inside of a hole of the inner one (C25_counterexample). Without such touching holes the answer is right and determined (C25_polygon_in_polygon_iff). For polygons with disconnected interiors see C72, which names all wrong answers. C76 says exactly what is answered about two polygons, and about a multiregion and a polygon."
  },
  {
   "property": "C26",
   "status": "partial",
   "theorems": [
    "Orient.Props.C26_region_in_polygon",
    "Orient.Props.C26_region_in_polygon_iff",
    "Orient.Props.C26_contour_in_polygon",
    "Orient.Props.C26_contour_in_polygon_iff",
    "Orient.Props.C26_segment_in_polygon",
    "Orient.Props.C26_multiregion_in_polygon",
    "Orient.Props.C26_multiregion_in_polygon_iff",
    "Orient.Props.C26_example",
    "Orient.Props.C26_counterexample_region",
    "Orient.Props.C26_counterexample_contour",
    "Orient.Props.C26_counterexample_segment"
   ],
   "note": "Right for all valid polygons with the exceptions named in the theorems, each shown real: regions and contours that are a component of a disconnected interior (ENCLOSED for COMPONENT), contours and segments between touching holes or border (CROSS for TOUCH). For connected interiors (C42) region_in_polygon and multiregion_in_polygon are right without exceptions, contour_in_polygon if the holes meet only in common vertices. segment_in_polygon is relative to segment_in_region (C13) being right for the border. For multiregion_in_polygon with disconnected interiors see C72, which names all wrong answers. C74 says for all valid operands what is answered, and when it is wrong. C76 says exactly what is answered about two polygons, and about a multiregion and a polygon."
  },
  {
   "property": "C27",
   "status": "proved",
   "theorems": [
    "Orient.Props.C27_operands_preserved"
   ],
   "note": "For both queues and every reachable state of the loop."
  },
  {
   "property": "C28",
   "status": "proved",
   "theorems": [
    "Orient.Props.C28_open_linear",
    "Orient.Props.C28_open_linear_order",
    "Orient.Props.C28_open_linear_swap",
    "Orient.Props.C28_closed_linear",
    "Orient.Props.C28_closed_linear_order",
    "Orient.Props.C28_closed_linear_swap",
    "Orient.Props.C28_linear_compound",
    "Orient.Props.C28_linear_compound_order",
    "Orient.Props.C28_compound",
    "Orient.Props.C28_compound_cross",
    "Orient.Props.C28_compound_order",
    "Orient.Props.C28_compound_swap"
   ],
   "note": "verdict functions of processing.py; the swap theorems need a non-empty report list and overlapping events marked as meeting"
  },
  {
   "property": "C29",
   "status": "proved",
   "theorems": [
    "Orient.Props.C29_segment",
    "Orient.Props.C29_multisegment",
    "Orient.Props.C29_contour",
    "Orient.Props.C29_segment_of_multisegment",
    "Orient.Props.C29_edge_of_contour",
    "Orient.Props.C29_edge_of_region",
    "Orient.Props.C29_multiregion",
    "Orient.Props.C29_polygon",
    "Orient.Props.C29_multipolygon",
    "Orient.Props.C29_region_of_multiregion",
    "Orient.Props.C29_example"
   ],
   "note": "Every clause, for every valid geometry; moreover multiregions, polygons with connected interiors and multipolygons with edges meeting in common endpoints are EQUAL to themselves and a region is COMPONENT of a multiregion with other regions."
  },
  {
   "property": "C30",
   "status": "partial",
   "theorems": [
    "Orient.Props.C30_counterexample",
    "Orient.Props.C51_multisegment_in_multisegment_sound",
    "Orient.Props.C51_multisegment_in_multisegment"
   ],
   "note": "The property is false of the code: a machine-checked counterexample where the directions of two valid multisegments alternate around a common point and the answer is TOUCH. The part that holds is C51: CROSS is always right, and both answers are right if the second operand has at most two directions at the crossing points or the crossings are inside of segments of both."
  },
  {
   "property": "C31",
   "status": "proved",
   "theorems": [
    "Orient.Props.C31_crossing_edges_flips"
   ],
   "note": "any closed polyline"
  },
  {
   "property": "C32",
   "status": "proved",
   "theorems": [
    "Orient.Props.C32_region_in_region",
    "Orient.Props.C32_region_in_region_iff",
    "Orient.Props.C32_examples"
   ],
   "note": "For all simple contours: the answer exists and equals the relation of interiors and boundaries."
  },
  {
   "property": "C33",
   "status": "proved",
   "theorems": [
    "Orient.Props.C33_contour_in_region",
    "Orient.Props.C33_contour_in_region_iff",
    "Orient.Props.C33_example"
   ],
   "note": "For all simple contours, without exceptions."
  },
  {
   "property": "C34",
   "status": "partial",
   "theorems": [
    "Orient.Props.C34_multisegment_in_region",
    "Orient.Props.C34_multisegment_in_region_iff",
    "Orient.Props.C34_counterexample",
    "Orient.Props.C34_example"
   ],
   "note": "Proved unless the multisegment contains the whole boundary of the region together with inner and outer points; then the code answers TOUCH where CROSS is claimed, which C34_counterexample shows. C73 says for all valid operands what is answered, and when it is wrong."
  },
  {
   "property": "C35",
   "status": "proved",
   "theorems": [
    "Orient.Props.C35_same_location_iff_joined",
    "Orient.Props.C35_two_sides",
    "Orient.Props.C35_example"
   ],
   "note": "Simple contours over any linearly ordered field; polylines are finite chains of straight segments (Spec/Joined.lean)."
  },
  {
   "property": "C36",
   "status": "partial",
   "theorems": [
    "Orient.Props.C36_contour_in_contour_partial",
    "Orient.Props.C36_contour_in_contour_iff",
    "Orient.Props.C36_contour_in_contour_sound",
    "Orient.Props.C36_cross_touch",
    "Orient.Props.C36_relations",
    "Orient.Props.C36_counterexample",
    "Orient.Props.C36_example"
   ],
   "note": "Proved unless the contours cross and every common point is a vertex of one of them; then the code may answer TOUCH where CROSS is claimed, which C36_counterexample shows. Every answer other than TOUCH is right (C36_contour_in_contour_sound). C36_cross_touch says exactly when the code answers CROSS and TOUCH."
  },
  {
   "property": "C37",
   "status": "partial",
   "theorems": [
    "Orient.Props.C37_segment_in_multiregion",
    "Orient.Props.C37_multisegment_in_multiregion",
    "Orient.Props.C37_contour_in_multiregion",
    "Orient.Props.C37_segment_in_multiregion_iff",
    "Orient.Props.C37_contour_in_multiregion_iff",
    "Orient.Props.C37_multisegment_in_multiregion_iff",
    "Orient.Props.C37_counterexample"
   ],
   "note": "The functions always answer. The answer is right for all valid operands if regions touch each other only at common vertices (and, for multisegments, if no whole boundary of a region is a part of the multisegment). The claim as stated is false: C37_counterexample is a segment without outer points which is answered CROSS, since a vertex of one region is in the middle of an edge of another one. The theorems without _iff say exactly which wrong answers remain possible: CROSS for ENCLOSED, and for multisegments which contain a whole boundary TOUCH for CROSS. C73 says for all valid operands what is answered, and when it is wrong."
  },
  {
   "property": "C38",
   "status": "proved",
   "theorems": [
    "Orient.Props.C38_region_in_multiregion",
    "Orient.Props.C38_multiregion_in_multiregion",
    "Orient.Props.C38_region_in_multiregion_iff",
    "Orient.Props.C38_multiregion_in_multiregion_iff"
   ],
   "note": "Multiregions are required to be non-empty where their bounding box is asked for and where uniqueness of the relation is claimed."
  },
  {
   "property": "C39",
   "status": "partial",
   "theorems": [
    "Orient.Props.C39_multisegment_in_polygon",
    "Orient.Props.C39_multisegment_in_polygon_iff",
    "Orient.Props.C39_counterexample"
   ],
   "note": "The function always answers. The answer is right for all valid operands if the border and the holes touch each other only at common vertices and the multisegment does not contain the whole boundary. The claim as stated is false: C39_counterexample is a segment from a hole to the outside which is answered CROSS. C39_multisegment_in_polygon says exactly which wrong answers remain possible: CROSS for TOUCH, and TOUCH for CROSS if the whole boundary is a part of the multisegment. C73 says for all valid operands what is answered, and when it is wrong."
  },
  {
   "property": "C40",
   "status": "partial",
   "theorems": [
    "Orient.Props.C40_segment_in_multipolygon",
    "Orient.Props.C40_multisegment_in_multipolygon",
    "Orient.Props.C40_contour_in_multipolygon",
    "Orient.Props.C40_segment_in_multipolygon_iff",
    "Orient.Props.C40_contour_in_multipolygon_iff",
    "Orient.Props.C40_multisegment_in_multipolygon_iff",
    "Orient.Props.C40_counterexample"
   ],
   "note": "The functions always answer. The answer is right for all valid operands if edges meet each other only in common endpoints (and, for multisegments, if no whole boundary of a polygon is a part of the multisegment). The claim as stated is false: C40_counterexample. The theorems without _iff say which wrong answers remain possible. C73 says for all valid operands what is answered, and when it is wrong."
  },
  {
   "property": "C41",
   "status": "partial",
   "theorems": [
    "Orient.Props.C41_region_in_multipolygon",
    "Orient.Props.C41_region_in_multipolygon_iff",
    "Orient.Props.C41_polygon_in_multipolygon",
    "Orient.Props.C41_polygon_in_multipolygon_iff",
    "Orient.Props.C41_multiregion_in_multipolygon",
    "Orient.Props.C41_multiregion_in_multipolygon_iff",
    "Orient.Props.C41_multipolygon_in_multipolygon",
    "Orient.Props.C41_multipolygon_in_multipolygon_iff",
    "Orient.Props.C41_counterexample",
    "Orient.Props.C41_multiregion_counterexample"
   ],
   "note": "region_in_multipolygon is right for all valid operands. The other functions always answer and are right for all valid operands if in at least one of them edges meet each other only in common endpoints. Otherwise OVERLAP may be answered by mistake, and is: C41_counterexample, C41_multiregion_counterexample. C73 says for all valid operands what is answered, and when it is wrong."
  },
  {
   "property": "C42",
   "status": "proved",
   "theorems": [
    "Orient.Props.C42_interior_joined",
    "Orient.Props.C42_same_locations_iff_joined",
    "Orient.Props.C42_example",
    "Orient.Props.C42_counterexample"
   ],
   "note": "Proved for all polygons and families of simple contours that touch without closing a ring; C42_counterexample shows that the condition cannot be dropped."
  },
  {
   "property": "C43",
   "status": "proved",
   "theorems": [
    "Orient.Props.C43_segment_in_region",
    "Orient.Props.C43_segment_in_region_iff",
    "Orient.Props.C29_edge_of_region"
   ],
   "note": "Proved for all inputs meeting the conditions named in the quantifier; the counterexamples of C13 show that they are needed."
  },
  {
   "property": "C44",
   "status": "proved",
   "theorems": [
    "Orient.Props.C34_multisegment_in_region_iff",
    "Orient.Props.C34_example",
    "Orient.Props.C34_counterexample"
   ],
   "note": "The part of C34 that holds."
  },
  {
   "property": "C45",
   "status": "proved",
   "theorems": [
    "Orient.Props.C36_contour_in_contour_iff",
    "Orient.Props.C36_contour_in_contour_sound",
    "Orient.Props.C36_relations",
    "Orient.Props.C36_example",
    "Orient.Props.C36_counterexample"
   ],
   "note": "The part of C36 that holds."
  },
  {
   "property": "C46",
   "status": "proved",
   "theorems": [
    "Orient.Props.C37_segment_in_multiregion_iff",
    "Orient.Props.C37_multisegment_in_multiregion_iff",
    "Orient.Props.C37_contour_in_multiregion_iff",
    "Orient.Props.C37_counterexample"
   ],
   "note": "The part of C37 that holds."
  },
  {
   "property": "C47",
   "status": "proved",
   "theorems": [
    "Orient.Props.C39_multisegment_in_polygon_iff",
    "Orient.Props.C40_segment_in_multipolygon_iff",
    "Orient.Props.C40_multisegment_in_multipolygon_iff",
    "Orient.Props.C40_contour_in_multipolygon_iff",
    "Orient.Props.C26_segment_beside_border",
    "Orient.Props.C39_counterexample",
    "Orient.Props.C40_counterexample"
   ],
   "note": "The parts of C39, C40 and C26 that hold."
  },
  {
   "property": "C48",
   "status": "proved",
   "theorems": [
    "Orient.Props.C41_region_in_multipolygon_iff",
    "Orient.Props.C41_polygon_in_multipolygon_iff",
    "Orient.Props.C41_multiregion_in_multipolygon_iff",
    "Orient.Props.C41_multipolygon_in_multipolygon_iff",
    "Orient.Props.C41_counterexample",
    "Orient.Props.C41_multiregion_counterexample"
   ],
   "note": "The part of C41 that holds."
  },
  {
   "property": "C49",
   "status": "proved",
   "theorems": [
    "Orient.Props.C26_region_in_polygon_iff",
    "Orient.Props.C26_multiregion_in_polygon_iff",
    "Orient.Props.C25_polygon_in_polygon_iff",
    "Orient.Props.C26_contour_in_polygon_iff",
    "Orient.Props.C26_example",
    "Orient.Props.C25_example",
    "Orient.Props.C25_counterexample",
    "Orient.Props.C26_counterexample_region",
    "Orient.Props.C26_counterexample_contour"
   ],
   "note": "The parts of C25 and C26 that hold; C42 gives a criterion for connected interiors."
  },
  {
   "property": "C50",
   "status": "proved",
   "theorems": [
    "Orient.Props.C23_segments",
    "Orient.Props.C23_contours",
    "Orient.Props.C23_regions",
    "Orient.Props.C23_multiregions",
    "Orient.Props.C23_polygons",
    "Orient.Props.C23_multipolygons",
    "Orient.Props.C23_example"
   ],
   "note": "The part of C23 that holds."
  },
  {
   "property": "C51",
   "status": "proved",
   "theorems": [
    "Orient.Props.C51_multisegment_in_multisegment_sound",
    "Orient.Props.C51_multisegment_in_multisegment",
    "Orient.Props.C51_multisegment_in_contour",
    "Orient.Props.C51_swap",
    "Orient.Props.C30_counterexample"
   ],
   "note": "The part of C30 that holds; the condition on directions is shown to be needed by C30_counterexample."
  },
  {
   "property": "C52",
   "status": "proved",
   "theorems": [
    "Orient.Props.C52_region_in_region",
    "Orient.Props.C52_contour_in_region",
    "Orient.Props.C52_multisegment_in_region",
    "Orient.Props.C52_segment_in_multiregion",
    "Orient.Props.C52_multisegment_in_multiregion",
    "Orient.Props.C52_contour_in_multiregion",
    "Orient.Props.C52_region_in_multiregion",
    "Orient.Props.C52_multiregion_in_multiregion",
    "Orient.Props.C52_multisegment_in_polygon",
    "Orient.Props.C52_contour_in_polygon",
    "Orient.Props.C52_region_in_polygon",
    "Orient.Props.C52_multiregion_in_polygon",
    "Orient.Props.C52_segment_in_multipolygon",
    "Orient.Props.C52_multisegment_in_multipolygon",
    "Orient.Props.C52_contour_in_multipolygon",
    "Orient.Props.C52_region_in_multipolygon",
    "Orient.Props.C52_multiregion_in_multipolygon",
    "Orient.Props.C52_polygon_in_multipolygon",
    "Orient.Props.C52_multipolygon_in_multipolygon",
    "Orient.Props.C52_segment_in_segment",
    "Orient.Props.C52_segment_in_multisegment",
    "Orient.Props.C52_segment_in_contour",
    "Orient.Props.C52_segment_in_region",
    "Orient.Props.C52_multisegment_in_multisegment",
    "Orient.Props.C52_multisegment_in_multisegment_two",
    "Orient.Props.C52_multisegment_in_contour",
    "Orient.Props.C52_polygon_in_polygon",
    "Orient.Props.C52_contour_in_contour",
    "Orient.Props.C52_segment_in_polygon",
    "Orient.Props.C52_example_simple",
    "Orient.Props.C52_example_multiregion",
    "Orient.Props.C52_example_polygon",
    "Orient.Props.C52_example_multipolygon",
    "Orient.Props.C52_counterexample_single",
    "Orient.Props.C52_counterexample_multisegment",
    "Orient.Props.C52_counterexample_contour"
   ],
   "note": "For each of the 28 functions of two geometries. The hypotheses say that point_in_* agrees on the operands (SameRegion, ...), so nothing refers to how the operands are written down. The conditions are those of the theorems about the single relations; the counterexamples show that they are needed for segment_in_multisegment, multisegment_in_multisegment and contour_in_contour."
  },
  {
   "property": "C53",
   "status": "proved",
   "theorems": [
    "Orient.Props.C53_point_in_segment",
    "Orient.Props.C53_point_in_multisegment",
    "Orient.Props.C53_point_in_contour",
    "Orient.Props.C53_point_in_region",
    "Orient.Props.C53_point_in_multiregion",
    "Orient.Props.C53_point_in_polygon",
    "Orient.Props.C53_point_in_multipolygon",
    "Orient.Props.C53_segment_in_segment",
    "Orient.Props.C53_segment_in_multisegment",
    "Orient.Props.C53_segment_in_contour",
    "Orient.Props.C53_segment_in_region",
    "Orient.Props.C53_multisegment_in_multisegment",
    "Orient.Props.C53_multisegment_in_multisegment_two",
    "Orient.Props.C53_multisegment_in_contour",
    "Orient.Props.C53_contour_in_contour",
    "Orient.Props.C53_region_in_region",
    "Orient.Props.C53_contour_in_region",
    "Orient.Props.C53_multisegment_in_region",
    "Orient.Props.C53_segment_in_multiregion",
    "Orient.Props.C53_multisegment_in_multiregion",
    "Orient.Props.C53_contour_in_multiregion",
    "Orient.Props.C53_region_in_multiregion",
    "Orient.Props.C53_multiregion_in_multiregion",
    "Orient.Props.C53_multisegment_in_polygon",
    "Orient.Props.C53_contour_in_polygon",
    "Orient.Props.C53_region_in_polygon",
    "Orient.Props.C53_multiregion_in_polygon",
    "Orient.Props.C53_segment_in_multipolygon",
    "Orient.Props.C53_multisegment_in_multipolygon",
    "Orient.Props.C53_contour_in_multipolygon",
    "Orient.Props.C53_region_in_multipolygon",
    "Orient.Props.C53_multiregion_in_multipolygon",
    "Orient.Props.C53_polygon_in_multipolygon",
    "Orient.Props.C53_multipolygon_in_multipolygon",
    "Orient.Props.C53_polygon_in_polygon",
    "Orient.Props.C53_segment_in_polygon",
    "Orient.Props.C53_example_point",
    "Orient.Props.C53_example_simple",
    "Orient.Props.C53_example_multiregion",
    "Orient.Props.C53_example_polygon",
    "Orient.Props.C53_example_multipolygon",
    "Orient.Props.C53_counterexample_segment_in_region",
    "Orient.Props.C53_counterexample_multisegment"
   ],
   "note": "For all 35 functions. contour_in_contour needs no condition although it is not always right (C36). The counterexamples show that segment_in_region changes under a reflection of a clockwise contour, and that TOUCH and CROSS of multisegments change under a rotation if more than two segments end at a point."
  },
  {
   "property": "C54",
   "status": "proved",
   "theorems": [
    "Orient.Props.C54_region_in_region",
    "Orient.Props.C54_contour_in_region",
    "Orient.Props.C54_multisegment_in_region",
    "Orient.Props.C54_segment_in_multiregion",
    "Orient.Props.C54_multisegment_in_multiregion",
    "Orient.Props.C54_contour_in_multiregion",
    "Orient.Props.C54_region_in_multiregion",
    "Orient.Props.C54_multiregion_in_multiregion",
    "Orient.Props.C54_multisegment_in_polygon",
    "Orient.Props.C54_contour_in_polygon",
    "Orient.Props.C54_region_in_polygon",
    "Orient.Props.C54_multiregion_in_polygon",
    "Orient.Props.C54_segment_in_multipolygon",
    "Orient.Props.C54_multisegment_in_multipolygon",
    "Orient.Props.C54_contour_in_multipolygon",
    "Orient.Props.C54_region_in_multipolygon",
    "Orient.Props.C54_multiregion_in_multipolygon",
    "Orient.Props.C54_polygon_in_multipolygon",
    "Orient.Props.C54_multipolygon_in_multipolygon",
    "Orient.Props.C54_segment_in_region",
    "Orient.Props.C54_polygon_in_polygon",
    "Orient.Props.C54_segment_in_polygon",
    "Orient.Props.C54_areas",
    "Orient.Props.C54_lines",
    "Orient.Props.C54_example_areas",
    "Orient.Props.C54_example_lines"
   ],
   "note": "ArealLocations and LinearLocations (Spec/Locations) mention only functions from points to locations; both sides of the equivalence are functions of the API. C54_areas and C54_lines are the same for all kinds at once."
  },
  {
   "property": "C55",
   "status": "proved",
   "theorems": [
    "Orient.Props.C55_areas",
    "Orient.Props.C55_within",
    "Orient.Props.C55_disjoint",
    "Orient.Props.C55_part",
    "Orient.Props.C55_line",
    "Orient.Props.C55_lines",
    "Orient.Props.C55_example_areas",
    "Orient.Props.C55_example_line",
    "Orient.Props.C55_example_lines",
    "Orient.Props.C55_example_within"
   ],
   "note": "The tables are written out in Spec/Compose and do not refer to the model. Where the API has only the function for the opposite order of operands, Area.relate and Line.relateLine take its complement."
  },
  {
   "property": "C56",
   "status": "proved",
   "theorems": [
    "Orient.Props.C56_areas",
    "Orient.Props.C56_lines",
    "Orient.Props.C56_locate_region",
    "Orient.Props.C56_locate_multiregion",
    "Orient.Props.C56_locate_polygon",
    "Orient.Props.C56_locate_lines",
    "Orient.Props.C56_locate_segment",
    "Orient.Props.C56_locate_contour",
    "Orient.Props.C56_region",
    "Orient.Props.C56_contour",
    "Orient.Props.C56_multisegment",
    "Orient.Props.C56_segment",
    "Orient.Props.C56_example",
    "Orient.Props.C56_example_polygon",
    "Orient.Props.C56_counterexample"
   ],
   "note": "wraps lists the four forms of a region. C56_counterexample: for clockwise regions segment_in_region and segment_in_multiregion differ."
  },
  {
   "property": "C57",
   "status": "proved",
   "theorems": [
    "Orient.Props.C57_lines",
    "Orient.Props.C57_multisegment",
    "Orient.Props.C57_contour",
    "Orient.Props.C57_step",
    "Orient.Props.C57_example"
   ],
   "note": "JoinOf (Spec/Joins) mentions only relations. Line and Area collect the kinds of geometries, relate is the function of the API."
  },
  {
   "property": "C58",
   "status": "proved",
   "theorems": [
    "Orient.Props.C58_areas",
    "Orient.Props.C58_right",
    "Orient.Props.C58_multiregion",
    "Orient.Props.C58_to_multiregion",
    "Orient.Props.C58_multipolygon",
    "Orient.Props.C58_to_multipolygon",
    "Orient.Props.C58_example",
    "Orient.Props.C58_example_right"
   ],
   "note": "The table Relation.unite is written out in Spec/Joins. C58_example shows two regions which OVERLAP a multiregion each and together COVER it."
  },
  {
   "property": "C59",
   "status": "proved",
   "theorems": [
    "Orient.Props.C59_border",
    "Orient.Props.C59_region",
    "Orient.Props.C59_regions",
    "Orient.Props.C59_contours",
    "Orient.Props.C59_example",
    "Orient.Props.C59_counterexample"
   ],
   "note": "Tables in Spec/Borders. For overlapping regions contour_in_contour may be TOUCH because of crossings at vertices (C36)."
  },
  {
   "property": "C60",
   "status": "proved",
   "theorems": [
    "Orient.Props.C60_border",
    "Orient.Props.C60_hole",
    "Orient.Props.C60_holes",
    "Orient.Props.C60_solid",
    "Orient.Props.C60_contour",
    "Orient.Props.C60_region",
    "Orient.Props.C60_polygon",
    "Orient.Props.C60_example"
   ],
   "note": "Connected and Neat are the conditions of C48 and C49; without them the functions may answer wrongly (C25, C26, C40, C41)."
  },
  {
   "property": "C61",
   "status": "proved",
   "theorems": [
    "Orient.Props.C61_left",
    "Orient.Props.C61_right",
    "Orient.Props.C61_between",
    "Orient.Props.C61_example"
   ],
   "note": "ConvexLeft and ConvexRight (Spec/Convex) allow superfluous vertices on edges."
  },
  {
   "property": "C62",
   "status": "proved",
   "theorems": [
    "Orient.Props.C62_line",
    "Orient.Props.C62_area",
    "Orient.Props.C62_example"
   ],
   "note": "Line.nodes and Area.nodes are the vertices; holes are not needed."
  },
  {
   "property": "C63",
   "status": "proved",
   "theorems": [
    "Orient.Props.C63_areas",
    "Orient.Props.C63_line",
    "Orient.Props.C63_lines",
    "Orient.Props.C63_example"
   ],
   "note": "The line is given by a linear function of the coordinates."
  },
  {
   "property": "C64",
   "status": "proved",
   "theorems": [
    "Orient.Props.C64_region",
    "Orient.Props.C64_polygon",
    "Orient.Props.C64_example"
   ],
   "note": "The hull is any convex contour with the vertices mentioned; no algorithm for hulls is modelled."
  },
  {
   "property": "C65",
   "status": "proved",
   "theorems": [
    "Orient.Props.C65_areas",
    "Orient.Props.C65_line",
    "Orient.Props.C65_lines",
    "Orient.Props.C65_locate_area",
    "Orient.Props.C65_locate_line",
    "Orient.Props.C65_region_in_region",
    "Orient.Props.C65_rounding_areas",
    "Orient.Props.C65_rounding_line",
    "Orient.Props.C65_rounding_lines",
    "Orient.Props.C65_no_crossings"
   ],
   "note": "ExactOn and MeasuresOn (Spec/Nodes) restrict the contract of the context to given points and parts of edges; Area.relate, Line.relate, Line.relateLine, Area.locate and Line.locate together are all functions of planar. The division in the comparison of angles of multisegments is exact in the model."
  },
  {
   "property": "C66",
   "status": "proved",
   "theorems": [
    "Orient.Props.C66_always_answers",
    "Orient.Props.C66_cross",
    "Orient.Props.C66_cross_right",
    "Orient.Props.C66_component",
    "Orient.Props.C66_component_right",
    "Orient.Props.C66_component_iff",
    "Orient.Props.C66_disjoint_within",
    "Orient.Props.C66_right",
    "Orient.Props.C66_one_side",
    "Orient.Props.C66_segment_in_polygon"
   ],
   "note": "Proved for all inputs; C66_right and C66_one_side under the conditions named in the quantifier. C13_counterexample_overlap, _component, _bridge and _elif show that the exceptions do occur."
  },
  {
   "property": "C67",
   "status": "proved",
   "theorems": [
    "Orient.Props.C67_contacts_le",
    "Orient.Props.C67_neat",
    "Orient.Props.C67_at_most",
    "Orient.Props.C67_exactly",
    "Orient.Props.C67_multisegment_in_multisegment",
    "Orient.Props.C67_linear",
    "Orient.Props.C67_quadratic",
    "Orient.Props.C67_grid",
    "Orient.Props.C67_documented"
   ],
   "note": "Proved for all inputs. Events are counted, not the comparisons within the heap and the tree of the sweep line. C67_documented refutes the documented complexity with grids of segments."
  },
  {
   "property": "C68",
   "status": "proved",
   "theorems": [
    "Orient.Props.C68_regions",
    "Orient.Props.C68_line",
    "Orient.Props.C68_example"
   ],
   "note": "Proved for all inputs, for every ordered field."
  },
  {
   "property": "C69",
   "status": "proved",
   "theorems": [
    "Orient.Props.C69",
    "Orient.Props.C69_answers",
    "Orient.Props.C69_trees",
    "Orient.Props.C69_example"
   ],
   "note": "Proved for all inputs, for every ordered field. The sweep is modelled a second time with the containers left open (Model/Containers.lean); Model/Trees.lean has instances."
  },
  {
   "property": "C70",
   "status": "proved",
   "theorems": [
    "Orient.Props.C70_any",
    "Orient.Props.C70_quotient_multisegments",
    "Orient.Props.C70_quotient_contour",
    "Orient.Props.C70_exact_multisegments",
    "Orient.Props.C70_exact_contour",
    "Orient.Props.C70_integers_multisegments",
    "Orient.Props.C70_integers_contour",
    "Orient.Props.C70_double_multisegments",
    "Orient.Props.C70_double_contour",
    "Orient.Props.C70_double_example",
    "Orient.Props.C70_double_counterexample",
    "Orient.Props.C70_any_example"
   ],
   "note": "Proved for all inputs. The linear sweep is modelled a second time with division as a parameter (Model/Division.lean). C70_double_counterexample shows that the bound is needed."
  },
  {
   "property": "C71",
   "status": "proved",
   "theorems": [
    "Orient.Props.C71_point",
    "Orient.Props.C71_point_line",
    "Orient.Props.C71_areas",
    "Orient.Props.C71_line",
    "Orient.Props.C71_lines",
    "Orient.Props.C71_segments",
    "Orient.Props.C71_simple",
    "Orient.Props.C71_regions",
    "Orient.Props.C71_contour_region",
    "Orient.Props.C71_areas_change",
    "Orient.Props.C71_areas_iff",
    "Orient.Props.C71_line_change",
    "Orient.Props.C71_example_areas",
    "Orient.Props.C71_example_lines"
   ],
   "note": "Proved for all inputs. For two polygons the moved ones have to be connected only (Area.Fits), the condition about touching holes of C49 is not needed for them."
  },
  {
   "property": "C72",
   "status": "proved",
   "theorems": [
    "Orient.Props.C72_polygon_relation",
    "Orient.Props.C72_multiregion_relation",
    "Orient.Props.C72_component",
    "Orient.Props.C72_composite",
    "Orient.Props.C72_polygon_in_polygon",
    "Orient.Props.C72_never",
    "Orient.Props.C72_multiregion_in_polygon",
    "Orient.Props.C72_never_multiregion",
    "Orient.Props.C72_wrapped",
    "Orient.Props.C72_wrapped_multiregion",
    "Orient.Props.C72_counterexample_touch",
    "Orient.Props.C72_counterexample_component",
    "Orient.Props.C72_counterexample_equal",
    "Orient.Props.C72_counterexample_overlap",
    "Orient.Props.C25_counterexample"
   ],
   "note": "Proved for all valid operands; completes C25 and C26 for polygons with disconnected interiors."
  },
  {
   "property": "C73",
   "status": "proved",
   "theorems": [
    "Orient.Props.C73_areas_right_iff",
    "Orient.Props.C73_linear_right_iff",
    "Orient.Props.C73_cross_right_iff",
    "Orient.Props.C73_multisegment_in_region",
    "Orient.Props.C73_multisegment_in_multiregion",
    "Orient.Props.C73_segment_in_multiregion",
    "Orient.Props.C73_contour_in_multiregion",
    "Orient.Props.C73_multisegment_in_polygon",
    "Orient.Props.C73_multisegment_in_multipolygon",
    "Orient.Props.C73_segment_in_multipolygon",
    "Orient.Props.C73_contour_in_multipolygon",
    "Orient.Props.C73_polygon_in_multipolygon",
    "Orient.Props.C73_multiregion_in_multipolygon",
    "Orient.Props.C73_multipolygon_in_multipolygon",
    "Orient.Props.C73_region_example",
    "Orient.Props.C73_multiregion_example",
    "Orient.Props.C73_polygon_example",
    "Orient.Props.C73_areas_example",
    "Orient.Props.C34_counterexample",
    "Orient.Props.C37_counterexample",
    "Orient.Props.C39_counterexample",
    "Orient.Props.C40_counterexample",
    "Orient.Props.C41_counterexample",
    "Orient.Props.C41_multiregion_counterexample"
   ],
   "note": "Proved for all valid operands; completes C34, C37, C39, C40 and C41, which are false as stated."
  },
  {
   "property": "C74",
   "status": "proved",
   "theorems": [
    "Orient.Props.C74_right_iff",
    "Orient.Props.C74_region_in_polygon",
    "Orient.Props.C74_contour_in_polygon",
    "Orient.Props.C74_segment_in_polygon",
    "Orient.Props.C74_example",
    "Orient.Props.C74_segment_example",
    "Orient.Props.C26_counterexample_region",
    "Orient.Props.C26_counterexample_contour"
   ],
   "note": "Proved for all valid operands; completes C26, which is false as stated. About segments under the hypothesis that segment_in_region is right about the border."
  },
  {
   "property": "C75",
   "status": "proved",
   "theorems": [
    "Orient.Props.C75_segment_in_region",
    "Orient.Props.C75_right_iff",
    "Orient.Props.C75_example",
    "Orient.Props.C75_example_wrong",
    "Orient.Props.C66_cross",
    "Orient.Props.C66_component",
    "Orient.Props.C66_disjoint_within",
    "Orient.Props.C13_counterexample_bridge",
    "Orient.Props.C13_counterexample_elif",
    "Orient.Props.C13_counterexample_component"
   ],
   "note": "Proved for all operands in the quantifier; completes C13, which is false as stated."
  },
  {
   "property": "C76",
   "status": "proved",
   "theorems": [
    "Orient.Props.C76_polygon_in_polygon",
    "Orient.Props.C76_right_iff",
    "Orient.Props.C76_multiregion_in_polygon",
    "Orient.Props.C76_example",
    "Orient.Props.C76_multiregion_example",
    "Orient.Props.C76_touch_example",
    "Orient.Props.C72_polygon_relation",
    "Orient.Props.C72_multiregion_relation",
    "Orient.Props.C72_counterexample_touch",
    "Orient.Props.C72_counterexample_component",
    "Orient.Props.C72_counterexample_equal",
    "Orient.Props.C72_counterexample_overlap",
    "Orient.Props.C25_counterexample"
   ],
   "note": "Proved for all operands in the quantifier; completes C25 and C26, which are false as stated."
  },
  {
   "property": "C77",
   "status": "proved",
   "theorems": [
    "Orient.Props.C77_polygons",
    "Orient.Props.C77_multipolygons",
    "Orient.Props.C77_polygon_itself",
    "Orient.Props.C77_multipolygon_itself",
    "Orient.Props.C77_example"
   ],
   "note": "The conditions of C50 and C29 are not needed: by C73 and C76 wrong answers are exchanged, too."
  },
  {
   "property": "C78",
   "status": "proved",
   "theorems": [
    "Orient.Props.C78_multisegment_in_region",
    "Orient.Props.C78_multisegment_in_polygon",
    "Orient.Props.C78_segment_in_multiregion",
    "Orient.Props.C78_contour_in_multiregion",
    "Orient.Props.C78_segment_in_multipolygon",
    "Orient.Props.C78_contour_in_multipolygon",
    "Orient.Props.C78_contour_in_polygon",
    "Orient.Props.C78_multisegment_in_multiregion",
    "Orient.Props.C78_multisegment_in_multipolygon",
    "Orient.Props.C78_polygon_in_multipolygon",
    "Orient.Props.C78_multiregion_in_multipolygon",
    "Orient.Props.C78_multipolygon_in_multipolygon",
    "Orient.Props.C78_region_in_polygon",
    "Orient.Props.C78_polygon_in_polygon",
    "Orient.Props.C78_multiregion_in_polygon",
    "Orient.Props.C78_counterexample_shear",
    "Orient.Props.C78_example_quarter",
    "Orient.Props.C78_example_pinched"
   ],
   "note": "The functions for which C53 has conditions, with the exceptions of segment_in_region, segment_in_polygon and multisegment_in_multisegment. C78_counterexample_shear: a shear changes TOUCH into CROSS, as bounding boxes decide which parts are examined."
  },
  {
   "property": "C79",
   "status": "proved",
   "theorems": [
    "Orient.Props.C79_segment_in_segment",
    "Orient.Props.C79_segment_in_multisegment",
    "Orient.Props.C79_segment_in_contour",
    "Orient.Props.C79_multisegment_in_contour",
    "Orient.Props.C79_contour_in_contour",
    "Orient.Props.C79_contour_in_region",
    "Orient.Props.C79_multisegment_in_region",
    "Orient.Props.C79_multisegment_in_polygon",
    "Orient.Props.C79_segment_in_multiregion",
    "Orient.Props.C79_segment_in_multipolygon",
    "Orient.Props.C79_contour_in_multiregion",
    "Orient.Props.C79_contour_in_multipolygon",
    "Orient.Props.C79_contour_in_polygon",
    "Orient.Props.C79_multisegment_in_multiregion",
    "Orient.Props.C79_multisegment_in_multipolygon",
    "Orient.Props.C79_region_in_region",
    "Orient.Props.C79_region_in_multiregion",
    "Orient.Props.C79_multiregion_in_multiregion",
    "Orient.Props.C79_region_in_polygon",
    "Orient.Props.C79_region_in_multipolygon",
    "Orient.Props.C79_multiregion_in_polygon",
    "Orient.Props.C79_polygon_in_polygon",
    "Orient.Props.C79_polygon_in_multipolygon",
    "Orient.Props.C79_multiregion_in_multipolygon",
    "Orient.Props.C79_multipolygon_in_multipolygon",
    "Orient.Props.C79_counterexample_direction",
    "Orient.Props.C79_counterexample_orientation",
    "Orient.Props.C79_example"
   ],
   "note": "25 functions. The counterexamples show that two of the other three depend on directions and orientations."
  },
  {
   "property": "C80",
   "status": "proved",
   "theorems": [
    "Orient.Props.C80_border",
    "Orient.Props.C80_hole",
    "Orient.Props.C80_holes",
    "Orient.Props.C80_solid",
    "Orient.Props.C80_contour",
    "Orient.Props.C80_polygon",
    "Orient.Props.C80_counterexample_polygon",
    "Orient.Props.C80_example"
   ],
   "note": "C60 without its conditions. C80_counterexample_polygon: the edges of the polygons of a valid multipolygon may cross, and then a polygon is not a component of the multipolygon for polygon_in_multipolygon."
  },
  {
   "property": "C81",
   "status": "proved",
   "theorems": [
    "Orient.Props.C81_multisegment_in_multisegment",
    "Orient.Props.C81_rewritten",
    "Orient.Props.C81_moved",
    "Orient.Props.C81_rotation_counterexample",
    "Orient.Props.C81_quarter_turn_counterexample",
    "Orient.Props.C81_reflection_counterexample",
    "Orient.Props.C81_division_counterexample"
   ],
   "note": "Completes C51, C78 and C79 for multisegments. What is answered is often not what the names of the relations say (C23, C51): the counterexamples show that rotations, reflections and divisions of segments change answers."
  },
  {
   "property": "C82",
   "status": "proved",
   "theorems": [
    "Orient.Props.C82_contour_in_region",
    "Orient.Props.C82_multisegment_in_region",
    "Orient.Props.C82_segment_in_multiregion",
    "Orient.Props.C82_contour_in_multiregion",
    "Orient.Props.C82_multisegment_in_multiregion",
    "Orient.Props.C82_multisegment_in_polygon",
    "Orient.Props.C82_multisegment_in_multipolygon",
    "Orient.Props.C82_segment_in_multipolygon",
    "Orient.Props.C82_contour_in_multipolygon",
    "Orient.Props.C82_contour_in_polygon",
    "Orient.Props.C82_segment_in_region",
    "Orient.Props.C82_segment_in_polygon",
    "Orient.Props.C82_region_in_region",
    "Orient.Props.C82_region_in_multiregion",
    "Orient.Props.C82_multiregion_in_multiregion",
    "Orient.Props.C82_region_in_multipolygon",
    "Orient.Props.C82_polygon_in_multipolygon",
    "Orient.Props.C82_multiregion_in_multipolygon",
    "Orient.Props.C82_multipolygon_in_multipolygon",
    "Orient.Props.C82_region_in_polygon",
    "Orient.Props.C82_multiregion_in_polygon",
    "Orient.Props.C82_polygon_in_polygon",
    "Orient.Props.C82_segment_in_segment",
    "Orient.Props.C82_segment_in_multisegment",
    "Orient.Props.C82_multisegment_in_multisegment",
    "Orient.Props.C82_multisegment_in_contour",
    "Orient.Props.C82_segment_in_contour",
    "Orient.Props.C82_contour_in_contour",
    "Orient.Props.C82_polygons",
    "Orient.Props.C82_segments",
    "Orient.Props.C82_example",
    "Orient.Props.C82_segment_example",
    "Orient.Props.C82_curves_example"
   ],
   "note": "No conditions on operands besides validity. Where a direction is missing it is false: polygon_in_polygon may answer WITHIN for ENCLOSED and OVERLAP for TOUCH (C25, C72), segment_in_contour may miss parts through a vertex without a corner (C08), segment_in_multisegment answers COMPONENT for an equal single segment (C05); segment_in_region and segment_in_polygon have no direction about parts (C75)."
  },
  {
   "property": "C83",
   "status": "proved",
   "theorems": [
    "Orient.Props.C83_segment_in_region",
    "Orient.Props.C83_right_iff",
    "Orient.Props.C83_example",
    "Orient.Props.C83_example_wrong",
    "Orient.Props.C83_example_last"
   ],
   "note": "No conditions besides a nondegenerate segment and a simple contour. C83_example_wrong: a diagonal of a convex pentagon listed clockwise is answered to TOUCH it."
  },
  {
   "property": "C84",
   "status": "proved",
   "theorems": [
    "Orient.Props.C84_segment_in_region",
    "Orient.Props.C84_segment_in_polygon",
    "Orient.Props.C84_segment_in_region_listed",
    "Orient.Props.C84_segment_in_polygon_listed",
    "Orient.Props.C84_counterexample_last",
    "Orient.Props.C84_example",
    "Orient.Props.C84_example_listed"
   ],
   "note": "Completes C78 and C79. C84_counterexample_last: for a counterclockwise contour the answer depends on which vertex is the last one; C53_counterexample_segment_in_region: reflections without listing the vertices anew change answers."
  },
  {
   "property": "C85",
   "status": "proved",
   "theorems": [
    "Orient.Props.C85_segment_in_region",
    "Orient.Props.C85_triangle",
    "Orient.Props.C85_segment_in_polygon",
    "Orient.Props.C85_example",
    "Orient.Props.C85_counterexample",
    "Orient.Props.C85_counterexample_superfluous",
    "Orient.Props.C85_example_polygon"
   ],
   "note": "C85_counterexample and C85_counterexample_superfluous show that the conditions are needed: convex pentagons listed clockwise, and vertices on edges."
  },
  {
   "property": "C86",
   "status": "proved",
   "theorems": [
    "Orient.Props.C86_multisegment_in_region",
    "Orient.Props.C86_multisegment",
    "Orient.Props.C86_segment_in_multiregion",
    "Orient.Props.C86_segment_in_multipolygon",
    "Orient.Props.C86_recognise",
    "Orient.Props.C86_polygon",
    "Orient.Props.C86_polygon_right",
    "Orient.Props.C86_region_in_polygon",
    "Orient.Props.C86_pieces",
    "Orient.Props.C86_contours",
    "Orient.Props.C86_polygon_in_polygon",
    "Orient.Props.C86_multiregion_in_polygon",
    "Orient.Props.C86_contour_in_polygon",
    "Orient.Props.C86_example",
    "Orient.Props.C86_polygon_counterexample",
    "Orient.Props.C86_example_polygons",
    "Orient.Props.C86_example_divided",
    "Orient.Props.C86_example_parts",
    "Orient.Props.C86_example_contours",
    "Orient.Props.C86_example_pieces"
   ],
   "note": "C86_polygon_counterexample shows that the condition on edges is needed for polygons with holes. The examples are the counterexamples to C83, C25, C26, C34, C36 and C72."
  },
  {
   "property": "C87",
   "status": "proved",
   "theorems": [
    "Orient.Props.C87_segment_in_polygon",
    "Orient.Props.C87_example",
    "Orient.Props.C87_example_wrong",
    "Orient.Props.C87_examples"
   ],
   "note": "Extends C83 by holes and C74 by borders which are wrongly read. C87_example and C87_example_wrong: a diagonal of a clockwise border is said to touch the polygon although it passes through it."
  },
  {
   "property": "C88",
   "status": "proved",
   "theorems": [
    "Orient.Props.C88_contour_in_multiregion",
    "Orient.Props.C88_multisegment_in_multiregion",
    "Orient.Props.C88_multisegment_in_polygon",
    "Orient.Props.C88_contour_in_polygon",
    "Orient.Props.C88_example",
    "Orient.Props.C88_multipolygon_counterexample"
   ],
   "note": "Removes the conditions of C57 for these functions. C88_multipolygon_counterexample shows that it fails for multipolygons."
  },
  {
   "property": "C89",
   "status": "proved",
   "theorems": [
    "Orient.Props.C89_edges",
    "Orient.Props.C89_contours",
    "Orient.Props.C89_recognise",
    "Orient.Props.C89_segment_in_contour",
    "Orient.Props.C89_segment_same",
    "Orient.Props.C89_segment_corners",
    "Orient.Props.C89_segment_in_edges",
    "Orient.Props.C89_segments",
    "Orient.Props.C89_segment_in_multisegment",
    "Orient.Props.C89_segment_two",
    "Orient.Props.C89_example_contours",
    "Orient.Props.C89_example_segments",
    "Orient.Props.C89_counterexample"
   ],
   "note": "Complements C56 (areal second operand). The exceptions are shown to be real: C89_example_contours, C89_example_segments, C89_counterexample."
  },
  {
   "property": "C90",
   "status": "proved",
   "theorems": [
    "Orient.Props.C90_segment",
    "Orient.Props.C90_multisegment",
    "Orient.Props.C90_contour",
    "Orient.Props.C90_edges",
    "Orient.Props.C90_example_segments",
    "Orient.Props.C90_example_multisegments",
    "Orient.Props.C90_example_contours"
   ],
   "note": "The tables are Spec/Filled; C90_example_segments, C90_example_multisegments and C90_example_contours show that every entry occurs."
  },
  {
   "property": "C91",
   "status": "proved",
   "theorems": [
    "Orient.Props.C91_regions",
    "Orient.Props.C91_pairs",
    "Orient.Props.C91_vertex",
    "Orient.Props.C91_apart",
    "Orient.Props.C91_example"
   ],
   "note": "Strengthens C59 for two regions to an equivalence. C91_example has regions for all eight pairs."
  },
  {
   "property": "C92",
   "status": "proved",
   "theorems": [
    "Orient.Props.C92_multisegment_in_contour",
    "Orient.Props.C92_multisegment_in_multisegment",
    "Orient.Props.C92_example"
   ],
   "note": "The linear counterpart of C57 and C58. TOUCH and CROSS of two multisegments cannot be told apart in general (C30, C81)."
  },
  {
   "property": "C93",
   "status": "proved",
   "theorems": [
    "Orient.Props.C93_multisegments",
    "Orient.Props.C93_contour",
    "Orient.Props.C93_contours",
    "Orient.Props.C93_three_contours",
    "Orient.Props.C93_segments",
    "Orient.Props.C93_two_segments",
    "Orient.Props.C93_segment",
    "Orient.Props.C93_example",
    "Orient.Props.C93_example_contours",
    "Orient.Props.C93_example_segments"
   ],
   "note": "The linear counterpart of C55; Relation.linearCompose is a table of 97 entries, each of which occurs for three of nine multisegments (C93_example)."
  },
  {
   "property": "C94",
   "status": "proved",
   "theorems": [
    "Orient.Props.C94_areas",
    "Orient.Props.C94_left",
    "Orient.Props.C94_lines",
    "Orient.Props.C94_region",
    "Orient.Props.C94_polygon",
    "Orient.Props.C94_polygon_left",
    "Orient.Props.C94_line_polygon",
    "Orient.Props.C94_example",
    "Orient.Props.C94_example_multiregions",
    "Orient.Props.C94_example_lines",
    "Orient.Props.C94_example_left"
   ],
   "note": "Tables in Spec/Carve: 48 entries for areal geometries, 24 for linear ones. C94_example_multiregions shows that more than one answer is possible for one pair."
  },
  {
   "property": "C95",
   "status": "proved",
   "theorems": [
    "Orient.Props.C95_sides",
    "Orient.Props.C95_contours",
    "Orient.Props.C95_segment",
    "Orient.Props.C95_multisegment",
    "Orient.Props.C95_contour",
    "Orient.Props.C95_example",
    "Orient.Props.C95_example_answers",
    "Orient.Props.C95_counterexample"
   ],
   "note": "The rule is Relation.ofSides in Spec/Sides. C95_counterexample shows that points do not tell the answer if the boundary is met."
  },
  {
   "property": "C96",
   "status": "proved",
   "theorems": [
    "Orient.Props.C96_sides",
    "Orient.Props.C96_contours",
    "Orient.Props.C96_polygons",
    "Orient.Props.C96_example",
    "Orient.Props.C96_example_points",
    "Orient.Props.C96_counterexample"
   ],
   "note": "The rule is Relation.ofBothSides in Spec/Sides. C96_counterexample shows that points of the borders alone do not tell the answer."
  }
 ]
}
