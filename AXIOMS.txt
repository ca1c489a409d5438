'Orient.Props.C01_point_in_segment' depends on axioms: [propext, Classical.choice, Quot.sound]
'Orient.Props.C02_segment_in_segment' depends on axioms: [propext, Classical.choice, Quot.sound]
'Orient.Props.C02_segment_in_segment_symmetries' depends on axioms: [propext, Classical.choice, Quot.sound]
'Orient.Props.C03_point_in_multisegment' depends on axioms: [propext, Classical.choice, Quot.sound]
'Orient.Props.C03_point_in_multisegment_representation' depends on axioms: [propext, Classical.choice, Quot.sound]
'Orient.Props.C04_subset' depends on axioms: [propext, Classical.choice, Quot.sound]
'Orient.Props.C04_superset' depends on axioms: [propext, Classical.choice, Quot.sound]
'Orient.Props.C05_segment_in_multisegment' depends on axioms: [propext, Classical.choice, Quot.sound]
'Orient.Props.C05_single' depends on axioms: [propext, Classical.choice, Quot.sound]
'Orient.Props.C06_representation' depends on axioms: [propext, Classical.choice, Quot.sound]
'Orient.Props.C07_point_in_contour' depends on axioms: [propext, Classical.choice, Quot.sound]
'Orient.Props.C07_point_in_contour_representation' depends on axioms: [propext, Classical.choice, Quot.sound]
'Orient.Props.C08_component' depends on axioms: [propext, Classical.choice, Quot.sound]
'Orient.Props.C08_cross' depends on axioms: [propext, Classical.choice, Quot.sound]
'Orient.Props.C08_segment_in_contour' depends on axioms: [propext, Classical.choice, Quot.sound]
'Orient.Props.C09_representation' depends on axioms: [propext, Classical.choice, Quot.sound]
'Orient.Props.C10_point_in_region' depends on axioms: [propext, Classical.choice, Quot.sound]
'Orient.Props.C10_point_in_region_unique' depends on axioms: [propext, Classical.choice, Quot.sound]
'Orient.Props.C11_constant_along_polylines' depends on axioms: [propext, Classical.choice, Quot.sound]
'Orient.Props.C11_exterior_outside_box' depends on axioms: [propext, Classical.choice, Quot.sound]
'Orient.Props.C12_affine' depends on axioms: [propext, Classical.choice, Quot.sound]
'Orient.Props.C12_representation' depends on axioms: [propext, Classical.choice, Quot.sound]
'Orient.Props.C13_counterexample_bridge' depends on axioms: [propext, Classical.choice, Quot.sound]
'Orient.Props.C13_counterexample_component' depends on axioms: [propext, Classical.choice, Quot.sound]
'Orient.Props.C13_counterexample_elif' depends on axioms: [propext, Classical.choice, Quot.sound]
'Orient.Props.C13_counterexample_inner_diagonal' depends on axioms: [propext, Classical.choice, Quot.sound]
'Orient.Props.C13_counterexample_outer_diagonal' depends on axioms: [propext, Classical.choice, Quot.sound]
'Orient.Props.C13_counterexample_overlap' depends on axioms: [propext, Classical.choice, Quot.sound]
'Orient.Props.C14_point_in_multiregion' depends on axioms: [propext, Classical.choice, Quot.sound]
'Orient.Props.C14_point_in_multiregion_first' depends on axioms: [propext, Classical.choice, Quot.sound]
'Orient.Props.C14_valid' depends on axioms: [propext, Classical.choice, Quot.sound]
'Orient.Props.C15_point_in_polygon' depends on axioms: [propext, Classical.choice, Quot.sound]
'Orient.Props.C15_point_in_polygon_interior' depends on axioms: [propext, Classical.choice, Quot.sound]
'Orient.Props.C15_valid' depends on axioms: [propext, Classical.choice, Quot.sound]
'Orient.Props.C16_point_in_multipolygon' depends on axioms: [propext, Classical.choice, Quot.sound]
'Orient.Props.C16_point_in_multipolygon_first' depends on axioms: [propext, Quot.sound]
'Orient.Props.C16_valid' depends on axioms: [propext, Classical.choice, Quot.sound]
'Orient.Props.C17_multisegment_in_contour' depends on axioms: [propext, Classical.choice, Quot.sound]
'Orient.Props.C17_multisegment_in_multisegment' depends on axioms: [propext, Classical.choice, Quot.sound]
'Orient.Props.C18_multisegment_in_contour' depends on axioms: [propext, Classical.choice, Quot.sound]
'Orient.Props.C18_multisegment_in_multisegment' depends on axioms: [propext, Classical.choice, Quot.sound]
'Orient.Props.C18_multisegment_in_multisegment_iff' depends on axioms: [propext, Classical.choice, Quot.sound]
'Orient.Props.C19_sweep_terminates' depends on axioms: [propext, Classical.choice, Quot.sound]
'Orient.Props.C20_contour_in_contour' depends on axioms: [propext, Classical.choice, Quot.sound]
'Orient.Props.C20_contour_in_multipolygon' depends on axioms: [propext, Classical.choice, Quot.sound]
'Orient.Props.C20_contour_in_multiregion' depends on axioms: [propext, Classical.choice, Quot.sound]
'Orient.Props.C20_contour_in_polygon' depends on axioms: [propext, Classical.choice, Quot.sound]
'Orient.Props.C20_contour_in_region' depends on axioms: [propext, Classical.choice, Quot.sound]
'Orient.Props.C20_multipolygon_in_multipolygon' depends on axioms: [propext, Classical.choice, Quot.sound]
'Orient.Props.C20_multiregion_in_multipolygon' depends on axioms: [propext, Classical.choice, Quot.sound]
'Orient.Props.C20_multiregion_in_multiregion' depends on axioms: [propext, Classical.choice, Quot.sound]
'Orient.Props.C20_multiregion_in_polygon' depends on axioms: [propext, Classical.choice, Quot.sound]
'Orient.Props.C20_multisegment_in_contour' depends on axioms: [propext, Classical.choice, Quot.sound]
'Orient.Props.C20_multisegment_in_multipolygon' depends on axioms: [propext, Classical.choice, Quot.sound]
'Orient.Props.C20_multisegment_in_multiregion' depends on axioms: [propext, Classical.choice, Quot.sound]
'Orient.Props.C20_multisegment_in_multisegment' depends on axioms: [propext, Classical.choice, Quot.sound]
'Orient.Props.C20_multisegment_in_polygon' depends on axioms: [propext, Classical.choice, Quot.sound]
'Orient.Props.C20_multisegment_in_region' depends on axioms: [propext, Classical.choice, Quot.sound]
'Orient.Props.C20_polygon_in_multipolygon' depends on axioms: [propext, Classical.choice, Quot.sound]
'Orient.Props.C20_polygon_in_polygon' depends on axioms: [propext, Classical.choice, Quot.sound]
'Orient.Props.C20_region_in_multipolygon' depends on axioms: [propext, Classical.choice, Quot.sound]
'Orient.Props.C20_region_in_multiregion' depends on axioms: [propext, Classical.choice, Quot.sound]
'Orient.Props.C20_region_in_polygon' depends on axioms: [propext, Classical.choice, Quot.sound]
'Orient.Props.C20_region_in_region' depends on axioms: [propext, Classical.choice, Quot.sound]
'Orient.Props.C20_segment_in_multipolygon' depends on axioms: [propext, Classical.choice, Quot.sound]
'Orient.Props.C20_segment_in_multiregion' depends on axioms: [propext, Classical.choice, Quot.sound]
'Orient.Props.C21_compound_compound' depends on axioms: [propext, Classical.choice, Quot.sound]
'Orient.Props.C21_linear_compound' depends on axioms: [propext, Classical.choice, Quot.sound]
'Orient.Props.C21_linear_linear' depends on axioms: [propext, Classical.choice, Quot.sound]
'Orient.Props.C21_locations_linear' depends on axioms: [propext, Quot.sound]
'Orient.Props.C22_boxes' depends on axioms: [propext, Classical.choice, Quot.sound]
'Orient.Props.C22_disjoint_boxes' depends on axioms: [propext, Quot.sound]
'Orient.Props.C22_linear_multipolygon' depends on axioms: [propext, Classical.choice, Quot.sound]
'Orient.Props.C22_linear_multiregion' depends on axioms: [propext, Classical.choice, Quot.sound]
'Orient.Props.C22_multipolygon_polygon' depends on axioms: [propext, Classical.choice, Quot.sound]
'Orient.Props.C22_multipolygon_region' depends on axioms: [propext, Classical.choice, Quot.sound]
'Orient.Props.C22_multiregion' depends on axioms: [propext, Classical.choice, Quot.sound]
'Orient.Props.C23_contours' depends on axioms: [propext, Classical.choice, Quot.sound]
'Orient.Props.C23_counterexample_multisegments' depends on axioms: [propext, Classical.choice, Quot.sound]
'Orient.Props.C23_example' depends on axioms: [propext, Classical.choice, Quot.sound]
'Orient.Props.C23_multipolygons' depends on axioms: [propext, Classical.choice, Quot.sound]
'Orient.Props.C23_multiregions' depends on axioms: [propext, Classical.choice, Quot.sound]
'Orient.Props.C23_multisegments_partial' depends on axioms: [propext, Classical.choice, Quot.sound]
'Orient.Props.C23_polygons' depends on axioms: [propext, Classical.choice, Quot.sound]
'Orient.Props.C23_regions' depends on axioms: [propext, Classical.choice, Quot.sound]
'Orient.Props.C23_segments' depends on axioms: [propext, Classical.choice, Quot.sound]
'Orient.Props.C24_same_cycle' depends on axioms: [propext, Classical.choice, Quot.sound]
'Orient.Props.C24_shortcut_iff' depends on axioms: [propext, Classical.choice, Quot.sound]
'Orient.Props.C24_shortcut_sound' depends on axioms: [propext, Classical.choice, Quot.sound]
'Orient.Props.C25_counterexample' depends on axioms: [propext, Classical.choice, Quot.sound]
'Orient.Props.C25_example' depends on axioms: [propext, Classical.choice, Quot.sound]
'Orient.Props.C25_polygon_in_polygon' depends on axioms: [propext, Classical.choice, Quot.sound]
'Orient.Props.C25_polygon_in_polygon_iff' depends on axioms: [propext, Classical.choice, Quot.sound]
'Orient.Props.C26_contour_in_polygon' depends on axioms: [propext, Classical.choice, Quot.sound]
'Orient.Props.C26_contour_in_polygon_iff' depends on axioms: [propext, Classical.choice, Quot.sound]
'Orient.Props.C26_counterexample_contour' depends on axioms: [propext, Classical.choice, Quot.sound]
'Orient.Props.C26_counterexample_region' depends on axioms: [propext, Classical.choice, Quot.sound]
'Orient.Props.C26_counterexample_segment' depends on axioms: [propext, Classical.choice, Quot.sound]
'Orient.Props.C26_example' depends on axioms: [propext, Classical.choice, Quot.sound]
'Orient.Props.C26_multiregion_in_polygon' depends on axioms: [propext, Classical.choice, Quot.sound]
'Orient.Props.C26_multiregion_in_polygon_iff' depends on axioms: [propext, Classical.choice, Quot.sound]
'Orient.Props.C26_region_in_polygon' depends on axioms: [propext, Classical.choice, Quot.sound]
'Orient.Props.C26_region_in_polygon_iff' depends on axioms: [propext, Classical.choice, Quot.sound]
'Orient.Props.C26_segment_beside_border' depends on axioms: [propext, Classical.choice, Quot.sound]
'Orient.Props.C26_segment_in_polygon' depends on axioms: [propext, Classical.choice, Quot.sound]
'Orient.Props.C27_operands_preserved' depends on axioms: [propext, Classical.choice, Quot.sound]
'Orient.Props.C28_closed_linear' depends on axioms: [propext, Classical.choice, Quot.sound]
'Orient.Props.C28_closed_linear_order' depends on axioms: [propext, Quot.sound]
'Orient.Props.C28_closed_linear_swap' depends on axioms: [propext, Quot.sound]
'Orient.Props.C28_compound' depends on axioms: [propext, Quot.sound]
'Orient.Props.C28_compound_cross' depends on axioms: [propext, Quot.sound]
'Orient.Props.C28_compound_order' depends on axioms: [propext, Classical.choice, Quot.sound]
'Orient.Props.C28_compound_swap' depends on axioms: [propext, Classical.choice, Quot.sound]
'Orient.Props.C28_linear_compound' depends on axioms: [propext, Quot.sound]
'Orient.Props.C28_linear_compound_order' depends on axioms: [propext, Quot.sound]
'Orient.Props.C28_open_linear' depends on axioms: [propext, Classical.choice, Quot.sound]
'Orient.Props.C28_open_linear_order' depends on axioms: [propext, Classical.choice, Quot.sound]
'Orient.Props.C28_open_linear_swap' depends on axioms: [propext, Classical.choice, Quot.sound]
'Orient.Props.C29_contour' depends on axioms: [propext, Classical.choice, Quot.sound]
'Orient.Props.C29_edge_of_contour' depends on axioms: [propext, Classical.choice, Quot.sound]
'Orient.Props.C29_edge_of_region' depends on axioms: [propext, Classical.choice, Quot.sound]
'Orient.Props.C29_example' depends on axioms: [propext, Classical.choice, Quot.sound]
'Orient.Props.C29_multipolygon' depends on axioms: [propext, Classical.choice, Quot.sound]
'Orient.Props.C29_multiregion' depends on axioms: [propext, Classical.choice, Quot.sound]
'Orient.Props.C29_multisegment' depends on axioms: [propext, Classical.choice, Quot.sound]
'Orient.Props.C29_polygon' depends on axioms: [propext, Classical.choice, Quot.sound]
'Orient.Props.C29_region_of_multiregion' depends on axioms: [propext, Classical.choice, Quot.sound]
'Orient.Props.C29_segment' depends on axioms: [propext, Classical.choice, Quot.sound]
'Orient.Props.C29_segment_of_multisegment' depends on axioms: [propext, Classical.choice, Quot.sound]
'Orient.Props.C30_counterexample' depends on axioms: [propext, Classical.choice, Quot.sound]
'Orient.Props.C31_crossing_edges_flips' depends on axioms: [propext, Classical.choice, Quot.sound]
'Orient.Props.C32_examples' depends on axioms: [propext, Classical.choice, Quot.sound]
'Orient.Props.C32_region_in_region' depends on axioms: [propext, Classical.choice, Quot.sound]
'Orient.Props.C32_region_in_region_iff' depends on axioms: [propext, Classical.choice, Quot.sound]
'Orient.Props.C33_contour_in_region' depends on axioms: [propext, Classical.choice, Quot.sound]
'Orient.Props.C33_contour_in_region_iff' depends on axioms: [propext, Classical.choice, Quot.sound]
'Orient.Props.C33_example' depends on axioms: [propext, Classical.choice, Quot.sound]
'Orient.Props.C34_counterexample' depends on axioms: [propext, Classical.choice, Quot.sound]
'Orient.Props.C34_example' depends on axioms: [propext, Classical.choice, Quot.sound]
'Orient.Props.C34_multisegment_in_region' depends on axioms: [propext, Classical.choice, Quot.sound]
'Orient.Props.C34_multisegment_in_region_iff' depends on axioms: [propext, Classical.choice, Quot.sound]
'Orient.Props.C35_example' depends on axioms: [propext, Classical.choice, Quot.sound]
'Orient.Props.C35_same_location_iff_joined' depends on axioms: [propext, Classical.choice, Quot.sound]
'Orient.Props.C35_two_sides' depends on axioms: [propext, Classical.choice, Quot.sound]
'Orient.Props.C36_contour_in_contour_iff' depends on axioms: [propext, Classical.choice, Quot.sound]
'Orient.Props.C36_contour_in_contour_partial' depends on axioms: [propext, Classical.choice, Quot.sound]
'Orient.Props.C36_contour_in_contour_sound' depends on axioms: [propext, Classical.choice, Quot.sound]
'Orient.Props.C36_counterexample' depends on axioms: [propext, Classical.choice, Quot.sound]
'Orient.Props.C36_cross_touch' depends on axioms: [propext, Classical.choice, Quot.sound]
'Orient.Props.C36_example' depends on axioms: [propext, Classical.choice, Quot.sound]
'Orient.Props.C36_relations' depends on axioms: [propext, Classical.choice, Quot.sound]
'Orient.Props.C37_contour_in_multiregion' depends on axioms: [propext, Classical.choice, Quot.sound]
'Orient.Props.C37_contour_in_multiregion_iff' depends on axioms: [propext, Classical.choice, Quot.sound]
'Orient.Props.C37_counterexample' depends on axioms: [propext, Classical.choice, Quot.sound]
'Orient.Props.C37_multisegment_in_multiregion' depends on axioms: [propext, Classical.choice, Quot.sound]
'Orient.Props.C37_multisegment_in_multiregion_iff' depends on axioms: [propext, Classical.choice, Quot.sound]
'Orient.Props.C37_segment_in_multiregion' depends on axioms: [propext, Classical.choice, Quot.sound]
'Orient.Props.C37_segment_in_multiregion_iff' depends on axioms: [propext, Classical.choice, Quot.sound]
'Orient.Props.C38_multiregion_in_multiregion' depends on axioms: [propext, Classical.choice, Quot.sound]
'Orient.Props.C38_multiregion_in_multiregion_iff' depends on axioms: [propext, Classical.choice, Quot.sound]
'Orient.Props.C38_region_in_multiregion' depends on axioms: [propext, Classical.choice, Quot.sound]
'Orient.Props.C38_region_in_multiregion_iff' depends on axioms: [propext, Classical.choice, Quot.sound]
'Orient.Props.C39_counterexample' depends on axioms: [propext, Classical.choice, Quot.sound]
'Orient.Props.C39_multisegment_in_polygon' depends on axioms: [propext, Classical.choice, Quot.sound]
'Orient.Props.C39_multisegment_in_polygon_iff' depends on axioms: [propext, Classical.choice, Quot.sound]
'Orient.Props.C40_contour_in_multipolygon' depends on axioms: [propext, Classical.choice, Quot.sound]
'Orient.Props.C40_contour_in_multipolygon_iff' depends on axioms: [propext, Classical.choice, Quot.sound]
'Orient.Props.C40_counterexample' depends on axioms: [propext, Classical.choice, Quot.sound]
'Orient.Props.C40_multisegment_in_multipolygon' depends on axioms: [propext, Classical.choice, Quot.sound]
'Orient.Props.C40_multisegment_in_multipolygon_iff' depends on axioms: [propext, Classical.choice, Quot.sound]
'Orient.Props.C40_segment_in_multipolygon' depends on axioms: [propext, Classical.choice, Quot.sound]
'Orient.Props.C40_segment_in_multipolygon_iff' depends on axioms: [propext, Classical.choice, Quot.sound]
'Orient.Props.C41_counterexample' depends on axioms: [propext, Classical.choice, Quot.sound]
'Orient.Props.C41_multipolygon_in_multipolygon' depends on axioms: [propext, Classical.choice, Quot.sound]
'Orient.Props.C41_multipolygon_in_multipolygon_iff' depends on axioms: [propext, Classical.choice, Quot.sound]
'Orient.Props.C41_multiregion_counterexample' depends on axioms: [propext, Classical.choice, Quot.sound]
'Orient.Props.C41_multiregion_in_multipolygon' depends on axioms: [propext, Classical.choice, Quot.sound]
'Orient.Props.C41_multiregion_in_multipolygon_iff' depends on axioms: [propext, Classical.choice, Quot.sound]
'Orient.Props.C41_polygon_in_multipolygon' depends on axioms: [propext, Classical.choice, Quot.sound]
'Orient.Props.C41_polygon_in_multipolygon_iff' depends on axioms: [propext, Classical.choice, Quot.sound]
'Orient.Props.C41_region_in_multipolygon' depends on axioms: [propext, Classical.choice, Quot.sound]
'Orient.Props.C41_region_in_multipolygon_iff' depends on axioms: [propext, Classical.choice, Quot.sound]
'Orient.Props.C42_counterexample' depends on axioms: [propext, Classical.choice, Quot.sound]
'Orient.Props.C42_example' depends on axioms: [propext, Classical.choice, Quot.sound]
'Orient.Props.C42_interior_joined' depends on axioms: [propext, Classical.choice, Quot.sound]
'Orient.Props.C42_same_locations_iff_joined' depends on axioms: [propext, Classical.choice, Quot.sound]
'Orient.Props.C43_segment_in_region' depends on axioms: [propext, Classical.choice, Quot.sound]
'Orient.Props.C43_segment_in_region_iff' depends on axioms: [propext, Classical.choice, Quot.sound]
'Orient.Props.C51_multisegment_in_contour' depends on axioms: [propext, Classical.choice, Quot.sound]
'Orient.Props.C51_multisegment_in_multisegment' depends on axioms: [propext, Classical.choice, Quot.sound]
'Orient.Props.C51_multisegment_in_multisegment_sound' depends on axioms: [propext, Classical.choice, Quot.sound]
'Orient.Props.C51_swap' depends on axioms: [propext, Classical.choice, Quot.sound]
'Orient.Props.C52_contour_in_contour' depends on axioms: [propext, Classical.choice, Quot.sound]
'Orient.Props.C52_contour_in_multipolygon' depends on axioms: [propext, Classical.choice, Quot.sound]
'Orient.Props.C52_contour_in_multiregion' depends on axioms: [propext, Classical.choice, Quot.sound]
'Orient.Props.C52_contour_in_polygon' depends on axioms: [propext, Classical.choice, Quot.sound]
'Orient.Props.C52_contour_in_region' depends on axioms: [propext, Classical.choice, Quot.sound]
'Orient.Props.C52_counterexample_contour' depends on axioms: [propext, Classical.choice, Quot.sound]
'Orient.Props.C52_counterexample_multisegment' depends on axioms: [propext, Classical.choice, Quot.sound]
'Orient.Props.C52_counterexample_single' depends on axioms: [propext, Classical.choice, Quot.sound]
'Orient.Props.C52_example_multipolygon' depends on axioms: [propext, Classical.choice, Quot.sound]
'Orient.Props.C52_example_multiregion' depends on axioms: [propext, Classical.choice, Quot.sound]
'Orient.Props.C52_example_polygon' depends on axioms: [propext, Classical.choice, Quot.sound]
'Orient.Props.C52_example_simple' depends on axioms: [propext, Classical.choice, Quot.sound]
'Orient.Props.C52_multipolygon_in_multipolygon' depends on axioms: [propext, Classical.choice, Quot.sound]
'Orient.Props.C52_multiregion_in_multipolygon' depends on axioms: [propext, Classical.choice, Quot.sound]
'Orient.Props.C52_multiregion_in_multiregion' depends on axioms: [propext, Classical.choice, Quot.sound]
'Orient.Props.C52_multiregion_in_polygon' depends on axioms: [propext, Classical.choice, Quot.sound]
'Orient.Props.C52_multisegment_in_contour' depends on axioms: [propext, Classical.choice, Quot.sound]
'Orient.Props.C52_multisegment_in_multipolygon' depends on axioms: [propext, Classical.choice, Quot.sound]
'Orient.Props.C52_multisegment_in_multiregion' depends on axioms: [propext, Classical.choice, Quot.sound]
'Orient.Props.C52_multisegment_in_multisegment' depends on axioms: [propext, Classical.choice, Quot.sound]
'Orient.Props.C52_multisegment_in_multisegment_two' depends on axioms: [propext, Classical.choice, Quot.sound]
'Orient.Props.C52_multisegment_in_polygon' depends on axioms: [propext, Classical.choice, Quot.sound]
'Orient.Props.C52_multisegment_in_region' depends on axioms: [propext, Classical.choice, Quot.sound]
'Orient.Props.C52_polygon_in_multipolygon' depends on axioms: [propext, Classical.choice, Quot.sound]
'Orient.Props.C52_polygon_in_polygon' depends on axioms: [propext, Classical.choice, Quot.sound]
'Orient.Props.C52_region_in_multipolygon' depends on axioms: [propext, Classical.choice, Quot.sound]
'Orient.Props.C52_region_in_multiregion' depends on axioms: [propext, Classical.choice, Quot.sound]
'Orient.Props.C52_region_in_polygon' depends on axioms: [propext, Classical.choice, Quot.sound]
'Orient.Props.C52_region_in_region' depends on axioms: [propext, Classical.choice, Quot.sound]
'Orient.Props.C52_segment_in_contour' depends on axioms: [propext, Classical.choice, Quot.sound]
'Orient.Props.C52_segment_in_multipolygon' depends on axioms: [propext, Classical.choice, Quot.sound]
'Orient.Props.C52_segment_in_multiregion' depends on axioms: [propext, Classical.choice, Quot.sound]
'Orient.Props.C52_segment_in_multisegment' depends on axioms: [propext, Classical.choice, Quot.sound]
'Orient.Props.C52_segment_in_polygon' depends on axioms: [propext, Classical.choice, Quot.sound]
'Orient.Props.C52_segment_in_region' depends on axioms: [propext, Classical.choice, Quot.sound]
'Orient.Props.C52_segment_in_segment' depends on axioms: [propext, Classical.choice, Quot.sound]
'Orient.Props.C53_contour_in_contour' depends on axioms: [propext, Classical.choice, Quot.sound]
'Orient.Props.C53_contour_in_multipolygon' depends on axioms: [propext, Classical.choice, Quot.sound]
'Orient.Props.C53_contour_in_multiregion' depends on axioms: [propext, Classical.choice, Quot.sound]
'Orient.Props.C53_contour_in_polygon' depends on axioms: [propext, Classical.choice, Quot.sound]
'Orient.Props.C53_contour_in_region' depends on axioms: [propext, Classical.choice, Quot.sound]
'Orient.Props.C53_counterexample_multisegment' depends on axioms: [propext, Classical.choice, Quot.sound]
'Orient.Props.C53_counterexample_segment_in_region' depends on axioms: [propext, Classical.choice, Quot.sound]
'Orient.Props.C53_example_multipolygon' depends on axioms: [propext, Classical.choice, Quot.sound]
'Orient.Props.C53_example_multiregion' depends on axioms: [propext, Classical.choice, Quot.sound]
'Orient.Props.C53_example_point' depends on axioms: [propext, Classical.choice, Quot.sound]
'Orient.Props.C53_example_polygon' depends on axioms: [propext, Classical.choice, Quot.sound]
'Orient.Props.C53_example_simple' depends on axioms: [propext, Classical.choice, Quot.sound]
'Orient.Props.C53_multipolygon_in_multipolygon' depends on axioms: [propext, Classical.choice, Quot.sound]
'Orient.Props.C53_multiregion_in_multipolygon' depends on axioms: [propext, Classical.choice, Quot.sound]
'Orient.Props.C53_multiregion_in_multiregion' depends on axioms: [propext, Classical.choice, Quot.sound]
'Orient.Props.C53_multiregion_in_polygon' depends on axioms: [propext, Classical.choice, Quot.sound]
'Orient.Props.C53_multisegment_in_contour' depends on axioms: [propext, Classical.choice, Quot.sound]
'Orient.Props.C53_multisegment_in_multipolygon' depends on axioms: [propext, Classical.choice, Quot.sound]
'Orient.Props.C53_multisegment_in_multiregion' depends on axioms: [propext, Classical.choice, Quot.sound]
'Orient.Props.C53_multisegment_in_multisegment' depends on axioms: [propext, Classical.choice, Quot.sound]
'Orient.Props.C53_multisegment_in_multisegment_two' depends on axioms: [propext, Classical.choice, Quot.sound]
'Orient.Props.C53_multisegment_in_polygon' depends on axioms: [propext, Classical.choice, Quot.sound]
'Orient.Props.C53_multisegment_in_region' depends on axioms: [propext, Classical.choice, Quot.sound]
'Orient.Props.C53_point_in_contour' depends on axioms: [propext, Classical.choice, Quot.sound]
'Orient.Props.C53_point_in_multipolygon' depends on axioms: [propext, Classical.choice, Quot.sound]
'Orient.Props.C53_point_in_multiregion' depends on axioms: [propext, Classical.choice, Quot.sound]
'Orient.Props.C53_point_in_multisegment' depends on axioms: [propext, Classical.choice, Quot.sound]
'Orient.Props.C53_point_in_polygon' depends on axioms: [propext, Classical.choice, Quot.sound]
'Orient.Props.C53_point_in_region' depends on axioms: [propext, Classical.choice, Quot.sound]
'Orient.Props.C53_point_in_segment' depends on axioms: [propext, Classical.choice, Quot.sound]
'Orient.Props.C53_polygon_in_multipolygon' depends on axioms: [propext, Classical.choice, Quot.sound]
'Orient.Props.C53_polygon_in_polygon' depends on axioms: [propext, Classical.choice, Quot.sound]
'Orient.Props.C53_region_in_multipolygon' depends on axioms: [propext, Classical.choice, Quot.sound]
'Orient.Props.C53_region_in_multiregion' depends on axioms: [propext, Classical.choice, Quot.sound]
'Orient.Props.C53_region_in_polygon' depends on axioms: [propext, Classical.choice, Quot.sound]
'Orient.Props.C53_region_in_region' depends on axioms: [propext, Classical.choice, Quot.sound]
'Orient.Props.C53_segment_in_contour' depends on axioms: [propext, Classical.choice, Quot.sound]
'Orient.Props.C53_segment_in_multipolygon' depends on axioms: [propext, Classical.choice, Quot.sound]
'Orient.Props.C53_segment_in_multiregion' depends on axioms: [propext, Classical.choice, Quot.sound]
'Orient.Props.C53_segment_in_multisegment' depends on axioms: [propext, Classical.choice, Quot.sound]
'Orient.Props.C53_segment_in_polygon' depends on axioms: [propext, Classical.choice, Quot.sound]
'Orient.Props.C53_segment_in_region' depends on axioms: [propext, Classical.choice, Quot.sound]
'Orient.Props.C53_segment_in_segment' depends on axioms: [propext, Classical.choice, Quot.sound]
'Orient.Props.C54_areas' depends on axioms: [propext, Classical.choice, Quot.sound]
'Orient.Props.C54_contour_in_multipolygon' depends on axioms: [propext, Classical.choice, Quot.sound]
'Orient.Props.C54_contour_in_multiregion' depends on axioms: [propext, Classical.choice, Quot.sound]
'Orient.Props.C54_contour_in_polygon' depends on axioms: [propext, Classical.choice, Quot.sound]
'Orient.Props.C54_contour_in_region' depends on axioms: [propext, Classical.choice, Quot.sound]
'Orient.Props.C54_example_areas' depends on axioms: [propext, Classical.choice, Quot.sound]
'Orient.Props.C54_example_lines' depends on axioms: [propext, Classical.choice, Quot.sound]
'Orient.Props.C54_lines' depends on axioms: [propext, Classical.choice, Quot.sound]
'Orient.Props.C54_multipolygon_in_multipolygon' depends on axioms: [propext, Classical.choice, Quot.sound]
'Orient.Props.C54_multiregion_in_multipolygon' depends on axioms: [propext, Classical.choice, Quot.sound]
'Orient.Props.C54_multiregion_in_multiregion' depends on axioms: [propext, Classical.choice, Quot.sound]
'Orient.Props.C54_multiregion_in_polygon' depends on axioms: [propext, Classical.choice, Quot.sound]
'Orient.Props.C54_multisegment_in_multipolygon' depends on axioms: [propext, Classical.choice, Quot.sound]
'Orient.Props.C54_multisegment_in_multiregion' depends on axioms: [propext, Classical.choice, Quot.sound]
'Orient.Props.C54_multisegment_in_polygon' depends on axioms: [propext, Classical.choice, Quot.sound]
'Orient.Props.C54_multisegment_in_region' depends on axioms: [propext, Classical.choice, Quot.sound]
'Orient.Props.C54_polygon_in_multipolygon' depends on axioms: [propext, Classical.choice, Quot.sound]
'Orient.Props.C54_polygon_in_polygon' depends on axioms: [propext, Classical.choice, Quot.sound]
'Orient.Props.C54_region_in_multipolygon' depends on axioms: [propext, Classical.choice, Quot.sound]
'Orient.Props.C54_region_in_multiregion' depends on axioms: [propext, Classical.choice, Quot.sound]
'Orient.Props.C54_region_in_polygon' depends on axioms: [propext, Classical.choice, Quot.sound]
'Orient.Props.C54_region_in_region' depends on axioms: [propext, Classical.choice, Quot.sound]
'Orient.Props.C54_segment_in_multipolygon' depends on axioms: [propext, Classical.choice, Quot.sound]
'Orient.Props.C54_segment_in_multiregion' depends on axioms: [propext, Classical.choice, Quot.sound]
'Orient.Props.C54_segment_in_polygon' depends on axioms: [propext, Classical.choice, Quot.sound]
'Orient.Props.C54_segment_in_region' depends on axioms: [propext, Classical.choice, Quot.sound]
'Orient.Props.C55_areas' depends on axioms: [propext, Classical.choice, Quot.sound]
'Orient.Props.C55_disjoint' depends on axioms: [propext, Classical.choice, Quot.sound]
'Orient.Props.C55_example_areas' depends on axioms: [propext, Classical.choice, Quot.sound]
'Orient.Props.C55_example_line' depends on axioms: [propext, Classical.choice, Quot.sound]
'Orient.Props.C55_example_lines' depends on axioms: [propext, Classical.choice, Quot.sound]
'Orient.Props.C55_example_within' depends on axioms: [propext, Classical.choice, Quot.sound]
'Orient.Props.C55_line' depends on axioms: [propext, Classical.choice, Quot.sound]
'Orient.Props.C55_lines' depends on axioms: [propext, Classical.choice, Quot.sound]
'Orient.Props.C55_part' depends on axioms: [propext, Classical.choice, Quot.sound]
'Orient.Props.C55_within' depends on axioms: [propext, Classical.choice, Quot.sound]
'Orient.Props.C56_areas' depends on axioms: [propext, Classical.choice, Quot.sound]
'Orient.Props.C56_contour' depends on axioms: [propext, Classical.choice, Quot.sound]
'Orient.Props.C56_counterexample' depends on axioms: [propext, Classical.choice, Quot.sound]
'Orient.Props.C56_example' depends on axioms: [propext, Classical.choice, Quot.sound]
'Orient.Props.C56_example_polygon' depends on axioms: [propext, Classical.choice, Quot.sound]
'Orient.Props.C56_lines' depends on axioms: [propext, Classical.choice, Quot.sound]
'Orient.Props.C56_locate_contour' depends on axioms: [propext, Classical.choice, Quot.sound]
'Orient.Props.C56_locate_lines' depends on axioms: [propext, Classical.choice, Quot.sound]
'Orient.Props.C56_locate_multiregion' depends on axioms: [propext, Classical.choice, Quot.sound]
'Orient.Props.C56_locate_polygon' depends on axioms: [propext, Classical.choice, Quot.sound]
'Orient.Props.C56_locate_region' depends on axioms: [propext, Classical.choice, Quot.sound]
'Orient.Props.C56_locate_segment' depends on axioms: [propext, Classical.choice, Quot.sound]
'Orient.Props.C56_multisegment' depends on axioms: [propext, Classical.choice, Quot.sound]
'Orient.Props.C56_region' depends on axioms: [propext, Classical.choice, Quot.sound]
'Orient.Props.C56_segment' depends on axioms: [propext, Classical.choice, Quot.sound]
'Orient.Props.C57_contour' depends on axioms: [propext, Classical.choice, Quot.sound]
'Orient.Props.C57_example' depends on axioms: [propext, Classical.choice, Quot.sound]
'Orient.Props.C57_lines' depends on axioms: [propext, Classical.choice, Quot.sound]
'Orient.Props.C57_multisegment' depends on axioms: [propext, Classical.choice, Quot.sound]
'Orient.Props.C57_step' depends on axioms: [propext, Classical.choice, Quot.sound]
'Orient.Props.C58_areas' depends on axioms: [propext, Classical.choice, Quot.sound]
'Orient.Props.C58_example' depends on axioms: [propext, Classical.choice, Quot.sound]
'Orient.Props.C58_example_right' depends on axioms: [propext, Classical.choice, Quot.sound]
'Orient.Props.C58_multipolygon' depends on axioms: [propext, Classical.choice, Quot.sound]
'Orient.Props.C58_multiregion' depends on axioms: [propext, Classical.choice, Quot.sound]
'Orient.Props.C58_right' depends on axioms: [propext, Classical.choice, Quot.sound]
'Orient.Props.C58_to_multipolygon' depends on axioms: [propext, Classical.choice, Quot.sound]
'Orient.Props.C58_to_multiregion' depends on axioms: [propext, Classical.choice, Quot.sound]
'Orient.Props.C59_border' depends on axioms: [propext, Classical.choice, Quot.sound]
'Orient.Props.C59_contours' depends on axioms: [propext, Classical.choice, Quot.sound]
'Orient.Props.C59_counterexample' depends on axioms: [propext, Classical.choice, Quot.sound]
'Orient.Props.C59_example' depends on axioms: [propext, Classical.choice, Quot.sound]
'Orient.Props.C59_region' depends on axioms: [propext, Classical.choice, Quot.sound]
'Orient.Props.C59_regions' depends on axioms: [propext, Classical.choice, Quot.sound]
'Orient.Props.C60_border' depends on axioms: [propext, Classical.choice, Quot.sound]
'Orient.Props.C60_contour' depends on axioms: [propext, Classical.choice, Quot.sound]
'Orient.Props.C60_example' depends on axioms: [propext, Classical.choice, Quot.sound]
'Orient.Props.C60_hole' depends on axioms: [propext, Classical.choice, Quot.sound]
'Orient.Props.C60_holes' depends on axioms: [propext, Classical.choice, Quot.sound]
'Orient.Props.C60_polygon' depends on axioms: [propext, Classical.choice, Quot.sound]
'Orient.Props.C60_region' depends on axioms: [propext, Classical.choice, Quot.sound]
'Orient.Props.C60_solid' depends on axioms: [propext, Classical.choice, Quot.sound]
'Orient.Props.C61_between' depends on axioms: [propext, Classical.choice, Quot.sound]
'Orient.Props.C61_example' depends on axioms: [propext, Classical.choice, Quot.sound]
'Orient.Props.C61_left' depends on axioms: [propext, Classical.choice, Quot.sound]
'Orient.Props.C61_right' depends on axioms: [propext, Classical.choice, Quot.sound]
'Orient.Props.C62_area' depends on axioms: [propext, Classical.choice, Quot.sound]
'Orient.Props.C62_example' depends on axioms: [propext, Classical.choice, Quot.sound]
'Orient.Props.C62_line' depends on axioms: [propext, Classical.choice, Quot.sound]
'Orient.Props.C63_areas' depends on axioms: [propext, Classical.choice, Quot.sound]
'Orient.Props.C63_example' depends on axioms: [propext, Classical.choice, Quot.sound]
'Orient.Props.C63_line' depends on axioms: [propext, Classical.choice, Quot.sound]
'Orient.Props.C63_lines' depends on axioms: [propext, Classical.choice, Quot.sound]
'Orient.Props.C64_example' depends on axioms: [propext, Classical.choice, Quot.sound]
'Orient.Props.C64_polygon' depends on axioms: [propext, Classical.choice, Quot.sound]
'Orient.Props.C64_region' depends on axioms: [propext, Classical.choice, Quot.sound]
'Orient.Props.C65_areas' depends on axioms: [propext, Classical.choice, Quot.sound]
'Orient.Props.C65_line' depends on axioms: [propext, Classical.choice, Quot.sound]
'Orient.Props.C65_lines' depends on axioms: [propext, Classical.choice, Quot.sound]
'Orient.Props.C65_locate_area' depends on axioms: [propext, Classical.choice, Quot.sound]
'Orient.Props.C65_locate_line' depends on axioms: [propext, Classical.choice, Quot.sound]
'Orient.Props.C65_no_crossings' depends on axioms: [propext, Classical.choice, Quot.sound]
'Orient.Props.C65_region_in_region' depends on axioms: [propext, Classical.choice, Quot.sound]
'Orient.Props.C65_rounding_areas' depends on axioms: [propext, Classical.choice, Quot.sound]
'Orient.Props.C65_rounding_line' depends on axioms: [propext, Classical.choice, Quot.sound]
'Orient.Props.C65_rounding_lines' depends on axioms: [propext, Classical.choice, Quot.sound]
'Orient.Props.C66_always_answers' depends on axioms: [propext, Classical.choice, Quot.sound]
'Orient.Props.C66_component' depends on axioms: [propext, Classical.choice, Quot.sound]
'Orient.Props.C66_component_iff' depends on axioms: [propext, Classical.choice, Quot.sound]
'Orient.Props.C66_component_right' depends on axioms: [propext, Classical.choice, Quot.sound]
'Orient.Props.C66_cross' depends on axioms: [propext, Classical.choice, Quot.sound]
'Orient.Props.C66_cross_right' depends on axioms: [propext, Classical.choice, Quot.sound]
'Orient.Props.C66_disjoint_within' depends on axioms: [propext, Classical.choice, Quot.sound]
'Orient.Props.C66_one_side' depends on axioms: [propext, Classical.choice, Quot.sound]
'Orient.Props.C66_right' depends on axioms: [propext, Classical.choice, Quot.sound]
'Orient.Props.C66_segment_in_polygon' depends on axioms: [propext, Classical.choice, Quot.sound]
'Orient.Props.C67_at_most' depends on axioms: [propext, Classical.choice, Quot.sound]
'Orient.Props.C67_contacts_le' depends on axioms: [propext, Classical.choice, Quot.sound]
'Orient.Props.C67_documented' depends on axioms: [propext, Classical.choice, Quot.sound]
'Orient.Props.C67_exactly' depends on axioms: [propext, Classical.choice, Quot.sound]
'Orient.Props.C67_grid' depends on axioms: [propext, Classical.choice, Quot.sound]
'Orient.Props.C67_linear' depends on axioms: [propext, Classical.choice, Quot.sound]
'Orient.Props.C67_multisegment_in_multisegment' depends on axioms: [propext, Classical.choice, Quot.sound]
'Orient.Props.C67_neat' depends on axioms: [propext, Classical.choice, Quot.sound]
'Orient.Props.C67_quadratic' depends on axioms: [propext, Classical.choice, Quot.sound]
'Orient.Props.C68_example' depends on axioms: [propext, Classical.choice, Quot.sound]
'Orient.Props.C68_line' depends on axioms: [propext, Classical.choice, Quot.sound]
'Orient.Props.C68_regions' depends on axioms: [propext, Classical.choice, Quot.sound]
'Orient.Props.C69' depends on axioms: [propext, Classical.choice, Quot.sound]
'Orient.Props.C69_answers' depends on axioms: [propext, Classical.choice, Quot.sound]
'Orient.Props.C69_example' depends on axioms: [propext, Classical.choice, Quot.sound]
'Orient.Props.C69_trees' depends on axioms: [propext, Classical.choice, Quot.sound]
'Orient.Props.C70_any' depends on axioms: [propext, Classical.choice, Quot.sound]
'Orient.Props.C70_any_example' depends on axioms: [propext, Classical.choice, Quot.sound]
'Orient.Props.C70_double_contour' depends on axioms: [propext, Classical.choice, Quot.sound]
'Orient.Props.C70_double_counterexample' depends on axioms: [propext, Classical.choice, Quot.sound]
'Orient.Props.C70_double_example' depends on axioms: [propext, Classical.choice, Quot.sound]
'Orient.Props.C70_double_multisegments' depends on axioms: [propext, Classical.choice, Quot.sound]
'Orient.Props.C70_exact_contour' depends on axioms: [propext, Classical.choice, Quot.sound]
'Orient.Props.C70_exact_multisegments' depends on axioms: [propext, Classical.choice, Quot.sound]
'Orient.Props.C70_integers_contour' depends on axioms: [propext, Classical.choice, Quot.sound]
'Orient.Props.C70_integers_multisegments' depends on axioms: [propext, Classical.choice, Quot.sound]
'Orient.Props.C70_quotient_contour' depends on axioms: [propext, Classical.choice, Quot.sound]
'Orient.Props.C70_quotient_multisegments' depends on axioms: [propext, Classical.choice, Quot.sound]
'Orient.Props.C71_areas' depends on axioms: [propext, Classical.choice, Quot.sound]
'Orient.Props.C71_areas_change' depends on axioms: [propext, Classical.choice, Quot.sound]
'Orient.Props.C71_areas_iff' depends on axioms: [propext, Classical.choice, Quot.sound]
'Orient.Props.C71_contour_region' depends on axioms: [propext, Classical.choice, Quot.sound]
'Orient.Props.C71_example_areas' depends on axioms: [propext, Classical.choice, Quot.sound]
'Orient.Props.C71_example_lines' depends on axioms: [propext, Classical.choice, Quot.sound]
'Orient.Props.C71_line' depends on axioms: [propext, Classical.choice, Quot.sound]
'Orient.Props.C71_line_change' depends on axioms: [propext, Classical.choice, Quot.sound]
'Orient.Props.C71_lines' depends on axioms: [propext, Classical.choice, Quot.sound]
'Orient.Props.C71_point' depends on axioms: [propext, Classical.choice, Quot.sound]
'Orient.Props.C71_point_line' depends on axioms: [propext, Classical.choice, Quot.sound]
'Orient.Props.C71_regions' depends on axioms: [propext, Classical.choice, Quot.sound]
'Orient.Props.C71_segments' depends on axioms: [propext, Classical.choice, Quot.sound]
'Orient.Props.C71_simple' depends on axioms: [propext, Classical.choice, Quot.sound]
'Orient.Props.C72_component' depends on axioms: [propext, Classical.choice, Quot.sound]
'Orient.Props.C72_composite' depends on axioms: [propext, Classical.choice, Quot.sound]
'Orient.Props.C72_counterexample_component' depends on axioms: [propext, Classical.choice, Quot.sound]
'Orient.Props.C72_counterexample_equal' depends on axioms: [propext, Classical.choice, Quot.sound]
'Orient.Props.C72_counterexample_overlap' depends on axioms: [propext, Classical.choice, Quot.sound]
'Orient.Props.C72_counterexample_touch' depends on axioms: [propext, Classical.choice, Quot.sound]
'Orient.Props.C72_multiregion_in_polygon' depends on axioms: [propext, Classical.choice, Quot.sound]
'Orient.Props.C72_multiregion_relation' depends on axioms: [propext, Classical.choice, Quot.sound]
'Orient.Props.C72_never' depends on axioms: [propext, Classical.choice, Quot.sound]
'Orient.Props.C72_never_multiregion' depends on axioms: [propext, Classical.choice, Quot.sound]
'Orient.Props.C72_polygon_in_polygon' depends on axioms: [propext, Classical.choice, Quot.sound]
'Orient.Props.C72_polygon_relation' depends on axioms: [propext, Classical.choice, Quot.sound]
'Orient.Props.C72_wrapped' depends on axioms: [propext, Classical.choice, Quot.sound]
'Orient.Props.C72_wrapped_multiregion' depends on axioms: [propext, Classical.choice, Quot.sound]
'Orient.Props.C73_areas_example' depends on axioms: [propext, Classical.choice, Quot.sound]
'Orient.Props.C73_areas_right_iff' depends on axioms: [propext, Classical.choice, Quot.sound]
'Orient.Props.C73_contour_in_multipolygon' depends on axioms: [propext, Classical.choice, Quot.sound]
'Orient.Props.C73_contour_in_multiregion' depends on axioms: [propext, Classical.choice, Quot.sound]
'Orient.Props.C73_cross_right_iff' depends on axioms: [propext, Classical.choice, Quot.sound]
'Orient.Props.C73_linear_right_iff' depends on axioms: [propext, Classical.choice, Quot.sound]
'Orient.Props.C73_multipolygon_in_multipolygon' depends on axioms: [propext, Classical.choice, Quot.sound]
'Orient.Props.C73_multiregion_example' depends on axioms: [propext, Classical.choice, Quot.sound]
'Orient.Props.C73_multiregion_in_multipolygon' depends on axioms: [propext, Classical.choice, Quot.sound]
'Orient.Props.C73_multisegment_in_multipolygon' depends on axioms: [propext, Classical.choice, Quot.sound]
'Orient.Props.C73_multisegment_in_multiregion' depends on axioms: [propext, Classical.choice, Quot.sound]
'Orient.Props.C73_multisegment_in_polygon' depends on axioms: [propext, Classical.choice, Quot.sound]
'Orient.Props.C73_multisegment_in_region' depends on axioms: [propext, Classical.choice, Quot.sound]
'Orient.Props.C73_polygon_example' depends on axioms: [propext, Classical.choice, Quot.sound]
'Orient.Props.C73_polygon_in_multipolygon' depends on axioms: [propext, Classical.choice, Quot.sound]
'Orient.Props.C73_region_example' depends on axioms: [propext, Classical.choice, Quot.sound]
'Orient.Props.C73_segment_in_multipolygon' depends on axioms: [propext, Classical.choice, Quot.sound]
'Orient.Props.C73_segment_in_multiregion' depends on axioms: [propext, Classical.choice, Quot.sound]
'Orient.Props.C74_contour_in_polygon' depends on axioms: [propext, Classical.choice, Quot.sound]
'Orient.Props.C74_example' depends on axioms: [propext, Classical.choice, Quot.sound]
'Orient.Props.C74_region_in_polygon' depends on axioms: [propext, Classical.choice, Quot.sound]
'Orient.Props.C74_right_iff' depends on axioms: [propext, Classical.choice, Quot.sound]
'Orient.Props.C74_segment_example' depends on axioms: [propext, Classical.choice, Quot.sound]
'Orient.Props.C74_segment_in_polygon' depends on axioms: [propext, Classical.choice, Quot.sound]
'Orient.Props.C75_example' depends on axioms: [propext, Classical.choice, Quot.sound]
'Orient.Props.C75_example_wrong' depends on axioms: [propext, Classical.choice, Quot.sound]
'Orient.Props.C75_right_iff' depends on axioms: [propext, Classical.choice, Quot.sound]
'Orient.Props.C75_segment_in_region' depends on axioms: [propext, Classical.choice, Quot.sound]
'Orient.Props.C76_example' depends on axioms: [propext, Classical.choice, Quot.sound]
'Orient.Props.C76_multiregion_example' depends on axioms: [propext, Classical.choice, Quot.sound]
'Orient.Props.C76_multiregion_in_polygon' depends on axioms: [propext, Classical.choice, Quot.sound]
'Orient.Props.C76_polygon_in_polygon' depends on axioms: [propext, Classical.choice, Quot.sound]
'Orient.Props.C76_right_iff' depends on axioms: [propext, Classical.choice, Quot.sound]
'Orient.Props.C76_touch_example' depends on axioms: [propext, Classical.choice, Quot.sound]
'Orient.Props.C77_example' depends on axioms: [propext, Classical.choice, Quot.sound]
'Orient.Props.C77_multipolygon_itself' depends on axioms: [propext, Classical.choice, Quot.sound]
'Orient.Props.C77_multipolygons' depends on axioms: [propext, Classical.choice, Quot.sound]
'Orient.Props.C77_polygon_itself' depends on axioms: [propext, Classical.choice, Quot.sound]
'Orient.Props.C77_polygons' depends on axioms: [propext, Classical.choice, Quot.sound]
'Orient.Props.C78_contour_in_multipolygon' depends on axioms: [propext, Classical.choice, Quot.sound]
'Orient.Props.C78_contour_in_multiregion' depends on axioms: [propext, Classical.choice, Quot.sound]
'Orient.Props.C78_contour_in_polygon' depends on axioms: [propext, Classical.choice, Quot.sound]
'Orient.Props.C78_counterexample_shear' depends on axioms: [propext, Classical.choice, Quot.sound]
'Orient.Props.C78_example_pinched' depends on axioms: [propext, Classical.choice, Quot.sound]
'Orient.Props.C78_example_quarter' depends on axioms: [propext, Classical.choice, Quot.sound]
'Orient.Props.C78_multipolygon_in_multipolygon' depends on axioms: [propext, Classical.choice, Quot.sound]
'Orient.Props.C78_multiregion_in_multipolygon' depends on axioms: [propext, Classical.choice, Quot.sound]
'Orient.Props.C78_multiregion_in_polygon' depends on axioms: [propext, Classical.choice, Quot.sound]
'Orient.Props.C78_multisegment_in_multipolygon' depends on axioms: [propext, Classical.choice, Quot.sound]
'Orient.Props.C78_multisegment_in_multiregion' depends on axioms: [propext, Classical.choice, Quot.sound]
'Orient.Props.C78_multisegment_in_polygon' depends on axioms: [propext, Classical.choice, Quot.sound]
'Orient.Props.C78_multisegment_in_region' depends on axioms: [propext, Classical.choice, Quot.sound]
'Orient.Props.C78_polygon_in_multipolygon' depends on axioms: [propext, Classical.choice, Quot.sound]
'Orient.Props.C78_polygon_in_polygon' depends on axioms: [propext, Classical.choice, Quot.sound]
'Orient.Props.C78_region_in_polygon' depends on axioms: [propext, Classical.choice, Quot.sound]
'Orient.Props.C78_segment_in_multipolygon' depends on axioms: [propext, Classical.choice, Quot.sound]
'Orient.Props.C78_segment_in_multiregion' depends on axioms: [propext, Classical.choice, Quot.sound]
'Orient.Props.C79_contour_in_contour' depends on axioms: [propext, Classical.choice, Quot.sound]
'Orient.Props.C79_contour_in_multipolygon' depends on axioms: [propext, Classical.choice, Quot.sound]
'Orient.Props.C79_contour_in_multiregion' depends on axioms: [propext, Classical.choice, Quot.sound]
'Orient.Props.C79_contour_in_polygon' depends on axioms: [propext, Classical.choice, Quot.sound]
'Orient.Props.C79_contour_in_region' depends on axioms: [propext, Classical.choice, Quot.sound]
'Orient.Props.C79_counterexample_direction' depends on axioms: [propext, Classical.choice, Quot.sound]
'Orient.Props.C79_counterexample_orientation' depends on axioms: [propext, Classical.choice, Quot.sound]
'Orient.Props.C79_example' depends on axioms: [propext, Classical.choice, Quot.sound]
'Orient.Props.C79_multipolygon_in_multipolygon' depends on axioms: [propext, Classical.choice, Quot.sound]
'Orient.Props.C79_multiregion_in_multipolygon' depends on axioms: [propext, Classical.choice, Quot.sound]
'Orient.Props.C79_multiregion_in_multiregion' depends on axioms: [propext, Classical.choice, Quot.sound]
'Orient.Props.C79_multiregion_in_polygon' depends on axioms: [propext, Classical.choice, Quot.sound]
'Orient.Props.C79_multisegment_in_contour' depends on axioms: [propext, Classical.choice, Quot.sound]
'Orient.Props.C79_multisegment_in_multipolygon' depends on axioms: [propext, Classical.choice, Quot.sound]
'Orient.Props.C79_multisegment_in_multiregion' depends on axioms: [propext, Classical.choice, Quot.sound]
'Orient.Props.C79_multisegment_in_polygon' depends on axioms: [propext, Classical.choice, Quot.sound]
'Orient.Props.C79_multisegment_in_region' depends on axioms: [propext, Classical.choice, Quot.sound]
'Orient.Props.C79_polygon_in_multipolygon' depends on axioms: [propext, Classical.choice, Quot.sound]
'Orient.Props.C79_polygon_in_polygon' depends on axioms: [propext, Classical.choice, Quot.sound]
'Orient.Props.C79_region_in_multipolygon' depends on axioms: [propext, Classical.choice, Quot.sound]
'Orient.Props.C79_region_in_multiregion' depends on axioms: [propext, Classical.choice, Quot.sound]
'Orient.Props.C79_region_in_polygon' depends on axioms: [propext, Classical.choice, Quot.sound]
'Orient.Props.C79_region_in_region' depends on axioms: [propext, Classical.choice, Quot.sound]
'Orient.Props.C79_segment_in_contour' depends on axioms: [propext, Classical.choice, Quot.sound]
'Orient.Props.C79_segment_in_multipolygon' depends on axioms: [propext, Classical.choice, Quot.sound]
'Orient.Props.C79_segment_in_multiregion' depends on axioms: [propext, Classical.choice, Quot.sound]
'Orient.Props.C79_segment_in_multisegment' depends on axioms: [propext, Classical.choice, Quot.sound]
'Orient.Props.C79_segment_in_segment' depends on axioms: [propext, Classical.choice, Quot.sound]
'Orient.Props.C80_border' depends on axioms: [propext, Classical.choice, Quot.sound]
'Orient.Props.C80_contour' depends on axioms: [propext, Classical.choice, Quot.sound]
'Orient.Props.C80_counterexample_polygon' depends on axioms: [propext, Classical.choice, Quot.sound]
'Orient.Props.C80_example' depends on axioms: [propext, Classical.choice, Quot.sound]
'Orient.Props.C80_hole' depends on axioms: [propext, Classical.choice, Quot.sound]
'Orient.Props.C80_holes' depends on axioms: [propext, Classical.choice, Quot.sound]
'Orient.Props.C80_polygon' depends on axioms: [propext, Classical.choice, Quot.sound]
'Orient.Props.C80_solid' depends on axioms: [propext, Classical.choice, Quot.sound]
'Orient.Props.C81_division_counterexample' depends on axioms: [propext, Classical.choice, Quot.sound]
'Orient.Props.C81_moved' depends on axioms: [propext, Classical.choice, Quot.sound]
'Orient.Props.C81_multisegment_in_multisegment' depends on axioms: [propext, Classical.choice, Quot.sound]
'Orient.Props.C81_quarter_turn_counterexample' depends on axioms: [propext, Classical.choice, Quot.sound]
'Orient.Props.C81_reflection_counterexample' depends on axioms: [propext, Classical.choice, Quot.sound]
'Orient.Props.C81_rewritten' depends on axioms: [propext, Classical.choice, Quot.sound]
'Orient.Props.C81_rotation_counterexample' depends on axioms: [propext, Classical.choice, Quot.sound]
'Orient.Props.C82_contour_in_contour' depends on axioms: [propext, Classical.choice, Quot.sound]
'Orient.Props.C82_contour_in_multipolygon' depends on axioms: [propext, Classical.choice, Quot.sound]
'Orient.Props.C82_contour_in_multiregion' depends on axioms: [propext, Classical.choice, Quot.sound]
'Orient.Props.C82_contour_in_polygon' depends on axioms: [propext, Classical.choice, Quot.sound]
'Orient.Props.C82_contour_in_region' depends on axioms: [propext, Classical.choice, Quot.sound]
'Orient.Props.C82_curves_example' depends on axioms: [propext, Classical.choice, Quot.sound]
'Orient.Props.C82_example' depends on axioms: [propext, Classical.choice, Quot.sound]
'Orient.Props.C82_multipolygon_in_multipolygon' depends on axioms: [propext, Classical.choice, Quot.sound]
'Orient.Props.C82_multiregion_in_multipolygon' depends on axioms: [propext, Classical.choice, Quot.sound]
'Orient.Props.C82_multiregion_in_multiregion' depends on axioms: [propext, Classical.choice, Quot.sound]
'Orient.Props.C82_multiregion_in_polygon' depends on axioms: [propext, Classical.choice, Quot.sound]
'Orient.Props.C82_multisegment_in_contour' depends on axioms: [propext, Classical.choice, Quot.sound]
'Orient.Props.C82_multisegment_in_multipolygon' depends on axioms: [propext, Classical.choice, Quot.sound]
'Orient.Props.C82_multisegment_in_multiregion' depends on axioms: [propext, Classical.choice, Quot.sound]
'Orient.Props.C82_multisegment_in_multisegment' depends on axioms: [propext, Classical.choice, Quot.sound]
'Orient.Props.C82_multisegment_in_polygon' depends on axioms: [propext, Classical.choice, Quot.sound]
'Orient.Props.C82_multisegment_in_region' depends on axioms: [propext, Classical.choice, Quot.sound]
'Orient.Props.C82_polygon_in_multipolygon' depends on axioms: [propext, Classical.choice, Quot.sound]
'Orient.Props.C82_polygon_in_polygon' depends on axioms: [propext, Classical.choice, Quot.sound]
'Orient.Props.C82_polygons' depends on axioms: [propext, Classical.choice, Quot.sound]
'Orient.Props.C82_region_in_multipolygon' depends on axioms: [propext, Classical.choice, Quot.sound]
'Orient.Props.C82_region_in_multiregion' depends on axioms: [propext, Classical.choice, Quot.sound]
'Orient.Props.C82_region_in_polygon' depends on axioms: [propext, Classical.choice, Quot.sound]
'Orient.Props.C82_region_in_region' depends on axioms: [propext, Classical.choice, Quot.sound]
'Orient.Props.C82_segment_example' depends on axioms: [propext, Classical.choice, Quot.sound]
'Orient.Props.C82_segment_in_contour' depends on axioms: [propext, Classical.choice, Quot.sound]
'Orient.Props.C82_segment_in_multipolygon' depends on axioms: [propext, Classical.choice, Quot.sound]
'Orient.Props.C82_segment_in_multiregion' depends on axioms: [propext, Classical.choice, Quot.sound]
'Orient.Props.C82_segment_in_multisegment' depends on axioms: [propext, Classical.choice, Quot.sound]
'Orient.Props.C82_segment_in_polygon' depends on axioms: [propext, Classical.choice, Quot.sound]
'Orient.Props.C82_segment_in_region' depends on axioms: [propext, Classical.choice, Quot.sound]
'Orient.Props.C82_segment_in_segment' depends on axioms: [propext, Classical.choice, Quot.sound]
'Orient.Props.C82_segments' depends on axioms: [propext, Classical.choice, Quot.sound]
'Orient.Props.C83_example' depends on axioms: [propext, Classical.choice, Quot.sound]
'Orient.Props.C83_example_last' depends on axioms: [propext, Classical.choice, Quot.sound]
'Orient.Props.C83_example_wrong' depends on axioms: [propext, Classical.choice, Quot.sound]
'Orient.Props.C83_right_iff' depends on axioms: [propext, Classical.choice, Quot.sound]
'Orient.Props.C83_segment_in_region' depends on axioms: [propext, Classical.choice, Quot.sound]
'Orient.Props.C84_counterexample_last' depends on axioms: [propext, Classical.choice, Quot.sound]
'Orient.Props.C84_example' depends on axioms: [propext, Classical.choice, Quot.sound]
'Orient.Props.C84_example_listed' depends on axioms: [propext, Classical.choice, Quot.sound]
'Orient.Props.C84_segment_in_polygon' depends on axioms: [propext, Classical.choice, Quot.sound]
'Orient.Props.C84_segment_in_polygon_listed' depends on axioms: [propext, Classical.choice, Quot.sound]
'Orient.Props.C84_segment_in_region' depends on axioms: [propext, Classical.choice, Quot.sound]
'Orient.Props.C84_segment_in_region_listed' depends on axioms: [propext, Classical.choice, Quot.sound]
'Orient.Props.C85_counterexample' depends on axioms: [propext, Classical.choice, Quot.sound]
'Orient.Props.C85_counterexample_superfluous' depends on axioms: [propext, Classical.choice, Quot.sound]
'Orient.Props.C85_example' depends on axioms: [propext, Classical.choice, Quot.sound]
'Orient.Props.C85_example_polygon' depends on axioms: [propext, Classical.choice, Quot.sound]
'Orient.Props.C85_segment_in_polygon' depends on axioms: [propext, Classical.choice, Quot.sound]
'Orient.Props.C85_segment_in_region' depends on axioms: [propext, Classical.choice, Quot.sound]
'Orient.Props.C85_triangle' depends on axioms: [propext, Classical.choice, Quot.sound]
'Orient.Props.C86_contour_in_polygon' depends on axioms: [propext, Classical.choice, Quot.sound]
'Orient.Props.C86_contours' depends on axioms: [propext, Classical.choice, Quot.sound]
'Orient.Props.C86_example' depends on axioms: [propext, Classical.choice, Quot.sound]
'Orient.Props.C86_example_contours' depends on axioms: [propext, Classical.choice, Quot.sound]
'Orient.Props.C86_example_divided' depends on axioms: [propext, Classical.choice, Quot.sound]
'Orient.Props.C86_example_parts' depends on axioms: [propext, Classical.choice, Quot.sound]
'Orient.Props.C86_example_pieces' depends on axioms: [propext, Classical.choice, Quot.sound]
'Orient.Props.C86_example_polygons' depends on axioms: [propext, Classical.choice, Quot.sound]
'Orient.Props.C86_multiregion_in_polygon' depends on axioms: [propext, Classical.choice, Quot.sound]
'Orient.Props.C86_multisegment' depends on axioms: [propext, Classical.choice, Quot.sound]
'Orient.Props.C86_multisegment_in_region' depends on axioms: [propext, Classical.choice, Quot.sound]
'Orient.Props.C86_pieces' depends on axioms: [propext, Classical.choice, Quot.sound]
'Orient.Props.C86_polygon' depends on axioms: [propext, Classical.choice, Quot.sound]
'Orient.Props.C86_polygon_counterexample' depends on axioms: [propext, Classical.choice, Quot.sound]
'Orient.Props.C86_polygon_in_polygon' depends on axioms: [propext, Classical.choice, Quot.sound]
'Orient.Props.C86_polygon_right' depends on axioms: [propext, Classical.choice, Quot.sound]
'Orient.Props.C86_recognise' depends on axioms: [propext, Classical.choice, Quot.sound]
'Orient.Props.C86_region_in_polygon' depends on axioms: [propext, Classical.choice, Quot.sound]
'Orient.Props.C86_segment_in_multipolygon' depends on axioms: [propext, Classical.choice, Quot.sound]
'Orient.Props.C86_segment_in_multiregion' depends on axioms: [propext, Classical.choice, Quot.sound]
'Orient.Props.C87_example' depends on axioms: [propext, Classical.choice, Quot.sound]
'Orient.Props.C87_example_wrong' depends on axioms: [propext, Classical.choice, Quot.sound]
'Orient.Props.C87_examples' depends on axioms: [propext, Classical.choice, Quot.sound]
'Orient.Props.C87_segment_in_polygon' depends on axioms: [propext, Classical.choice, Quot.sound]
'Orient.Props.C88_contour_in_multiregion' depends on axioms: [propext, Classical.choice, Quot.sound]
'Orient.Props.C88_contour_in_polygon' depends on axioms: [propext, Classical.choice, Quot.sound]
'Orient.Props.C88_example' depends on axioms: [propext, Classical.choice, Quot.sound]
'Orient.Props.C88_multipolygon_counterexample' depends on axioms: [propext, Classical.choice, Quot.sound]
'Orient.Props.C88_multisegment_in_multiregion' depends on axioms: [propext, Classical.choice, Quot.sound]
'Orient.Props.C88_multisegment_in_polygon' depends on axioms: [propext, Classical.choice, Quot.sound]
'Orient.Props.C89_contours' depends on axioms: [propext, Classical.choice, Quot.sound]
'Orient.Props.C89_counterexample' depends on axioms: [propext, Classical.choice, Quot.sound]
'Orient.Props.C89_edges' depends on axioms: [propext, Classical.choice, Quot.sound]
'Orient.Props.C89_example_contours' depends on axioms: [propext, Classical.choice, Quot.sound]
'Orient.Props.C89_example_segments' depends on axioms: [propext, Classical.choice, Quot.sound]
'Orient.Props.C89_recognise' depends on axioms: [propext, Classical.choice, Quot.sound]
'Orient.Props.C89_segment_corners' depends on axioms: [propext, Classical.choice, Quot.sound]
'Orient.Props.C89_segment_in_contour' depends on axioms: [propext, Classical.choice, Quot.sound]
'Orient.Props.C89_segment_in_edges' depends on axioms: [propext, Classical.choice, Quot.sound]
'Orient.Props.C89_segment_in_multisegment' depends on axioms: [propext, Classical.choice, Quot.sound]
'Orient.Props.C89_segment_same' depends on axioms: [propext, Classical.choice, Quot.sound]
'Orient.Props.C89_segment_two' depends on axioms: [propext, Classical.choice, Quot.sound]
'Orient.Props.C89_segments' depends on axioms: [propext, Classical.choice, Quot.sound]
'Orient.Props.C90_contour' depends on axioms: [propext, Classical.choice, Quot.sound]
'Orient.Props.C90_edges' depends on axioms: [propext, Classical.choice, Quot.sound]
'Orient.Props.C90_example_contours' depends on axioms: [propext, Classical.choice, Quot.sound]
'Orient.Props.C90_example_multisegments' depends on axioms: [propext, Classical.choice, Quot.sound]
'Orient.Props.C90_example_segments' depends on axioms: [propext, Classical.choice, Quot.sound]
'Orient.Props.C90_multisegment' depends on axioms: [propext, Classical.choice, Quot.sound]
'Orient.Props.C90_segment' depends on axioms: [propext, Classical.choice, Quot.sound]
'Orient.Props.C91_apart' depends on axioms: [propext, Classical.choice, Quot.sound]
'Orient.Props.C91_example' depends on axioms: [propext, Classical.choice, Quot.sound]
'Orient.Props.C91_pairs' depends on axioms: [propext, Classical.choice, Quot.sound]
'Orient.Props.C91_regions' depends on axioms: [propext, Classical.choice, Quot.sound]
'Orient.Props.C91_vertex' depends on axioms: [propext, Classical.choice, Quot.sound]
'Orient.Props.C92_example' depends on axioms: [propext, Classical.choice, Quot.sound]
'Orient.Props.C92_multisegment_in_contour' depends on axioms: [propext, Classical.choice, Quot.sound]
'Orient.Props.C92_multisegment_in_multisegment' depends on axioms: [propext, Classical.choice, Quot.sound]
'Orient.Props.C93_contour' depends on axioms: [propext, Classical.choice, Quot.sound]
'Orient.Props.C93_contours' depends on axioms: [propext, Classical.choice, Quot.sound]
'Orient.Props.C93_example' depends on axioms: [propext, Classical.choice, Quot.sound]
'Orient.Props.C93_example_contours' depends on axioms: [propext, Classical.choice, Quot.sound]
'Orient.Props.C93_example_segments' depends on axioms: [propext, Classical.choice, Quot.sound]
'Orient.Props.C93_multisegments' depends on axioms: [propext, Classical.choice, Quot.sound]
'Orient.Props.C93_segment' depends on axioms: [propext, Classical.choice, Quot.sound]
'Orient.Props.C93_segments' depends on axioms: [propext, Classical.choice, Quot.sound]
'Orient.Props.C93_three_contours' depends on axioms: [propext, Classical.choice, Quot.sound]
'Orient.Props.C93_two_segments' depends on axioms: [propext, Classical.choice, Quot.sound]
'Orient.Props.C94_areas' depends on axioms: [propext, Classical.choice, Quot.sound]
'Orient.Props.C94_example' depends on axioms: [propext, Classical.choice, Quot.sound]
'Orient.Props.C94_example_left' depends on axioms: [propext, Classical.choice, Quot.sound]
'Orient.Props.C94_example_lines' depends on axioms: [propext, Classical.choice, Quot.sound]
'Orient.Props.C94_example_multiregions' depends on axioms: [propext, Classical.choice, Quot.sound]
'Orient.Props.C94_left' depends on axioms: [propext, Classical.choice, Quot.sound]
'Orient.Props.C94_line_polygon' depends on axioms: [propext, Classical.choice, Quot.sound]
'Orient.Props.C94_lines' depends on axioms: [propext, Classical.choice, Quot.sound]
'Orient.Props.C94_polygon' depends on axioms: [propext, Classical.choice, Quot.sound]
'Orient.Props.C94_polygon_left' depends on axioms: [propext, Classical.choice, Quot.sound]
'Orient.Props.C94_region' depends on axioms: [propext, Classical.choice, Quot.sound]
'Orient.Props.C95_contour' depends on axioms: [propext, Classical.choice, Quot.sound]
'Orient.Props.C95_contours' depends on axioms: [propext, Classical.choice, Quot.sound]
'Orient.Props.C95_counterexample' depends on axioms: [propext, Classical.choice, Quot.sound]
'Orient.Props.C95_example' depends on axioms: [propext, Classical.choice, Quot.sound]
'Orient.Props.C95_example_answers' depends on axioms: [propext, Classical.choice, Quot.sound]
'Orient.Props.C95_multisegment' depends on axioms: [propext, Classical.choice, Quot.sound]
'Orient.Props.C95_segment' depends on axioms: [propext, Classical.choice, Quot.sound]
'Orient.Props.C95_sides' depends on axioms: [propext, Classical.choice, Quot.sound]
'Orient.Props.C96_contours' depends on axioms: [propext, Classical.choice, Quot.sound]
'Orient.Props.C96_counterexample' depends on axioms: [propext, Classical.choice, Quot.sound]
'Orient.Props.C96_example' depends on axioms: [propext, Classical.choice, Quot.sound]
'Orient.Props.C96_example_points' depends on axioms: [propext, Classical.choice, Quot.sound]
'Orient.Props.C96_polygons' depends on axioms: [propext, Classical.choice, Quot.sound]
'Orient.Props.C96_sides' depends on axioms: [propext, Classical.choice, Quot.sound]
'Orient.Props.RaisesOnlyForOverlaps.exists_ok' depends on axioms: [propext, Quot.sound]
