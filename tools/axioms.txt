Karta.Band.Props.C01_compressed_band_is_last_write_wins	propext, Classical.choice, Quot.sound
Karta.Band.Props.C02_chunk_size_unobservable	propext, Classical.choice, Quot.sound
Karta.Band.Props.C03_simple_and_compressed_agree	propext, Classical.choice, Quot.sound
Karta.Band.Props.C04_violated_silent_corruption	propext
Karta.Band.Props.C04_violated_negative_offset	propext
Karta.Band.Props.C04_overflowing_write_frame_partial	propext, Classical.choice, Quot.sound
Karta.Band.Props.C05_sliced_read_partial	propext, Classical.choice, Quot.sound
Karta.Band.Props.C05_violated_inverted_slice	propext
Karta.Band.Props.C05_violated_integer_out_of_range	propext
Karta.Band.Props.C05_integer_row_key_modulo	propext, Quot.sound
Karta.Band.Props.C06_sliced_write	propext, Classical.choice, Quot.sound
Karta.Band.Props.C06_bad_shape_changes_nothing	propext, Classical.choice, Quot.sound
Karta.Band.Props.C06_stepped_refused	propext, Quot.sound
Karta.Band.Props.C06_inverted_refused	propext, Classical.choice, Quot.sound
Karta.Band.Props.C06_integer_row_key_modulo	propext, Quot.sound
Karta.Band.Props.C07_mask_write	propext, Classical.choice, Quot.sound
Karta.Band.Props.C07_mask_read	propext, Classical.choice, Quot.sound
Karta.Band.Props.C07_mask_round_trip	propext, Classical.choice, Quot.sound
Karta.Band.Props.C07_violated_three_d_round_trip	propext, Quot.sound
Karta.Band.Props.C07_three_d_mask_read_partial	propext, Classical.choice, Quot.sound
Karta.Band.Props.C08_iteration_yields_rows	propext, Classical.choice, Quot.sound
Karta.Grid.C09_center_round_trip	propext, Classical.choice, Quot.sound
Karta.Grid.C09_position_round_trip	propext, Classical.choice, Quot.sound
Karta.Grid.C09_coordinate_generator_agrees	propext, Classical.choice, Quot.sound
Karta.Grid.C09_quarter_turn_undefined	propext, Classical.choice, Quot.sound
Karta.Grid.C10_point_in_cell	propext, Classical.choice, Quot.sound
Karta.Grid.C10_returned_cell_contains	propext, Classical.choice, Quot.sound
Karta.Grid.C10_outside_raises	propext, Classical.choice, Quot.sound
Karta.Grid.C10_vector_agrees	propext, Classical.choice, Quot.sound
Karta.Grid.C10_border_depends_on_parity	propext, Classical.choice, Quot.sound
Karta.Grid.C11_tiling	propext, Classical.choice, Quot.sound
Karta.Grid.C11_default_size	propext, Classical.choice, Quot.sound
Karta.Grid.C11_violated_default_on_small_grids	propext, Classical.choice, Quot.sound
Karta.Grid.C12_clip	propext, Classical.choice, Quot.sound
Karta.Grid.C13_violated_skew	propext, Classical.choice, Quot.sound
Karta.Grid.C13_resize_partial	propext, Classical.choice, Quot.sound
Karta.Grid.C13_violated_negative_row_spacing	propext, Classical.choice, Quot.sound
Karta.Grid.C14_merge_partial	propext, Classical.choice, Quot.sound
Karta.Grid.C14_default_weights	propext, Classical.choice, Quot.sound
Karta.Grid.C14_weights_scale	propext, Classical.choice, Quot.sound
Karta.Grid.C14_order	propext, Classical.choice, Quot.sound
Karta.Grid.C14_single	propext, Classical.choice, Quot.sound
Karta.Grid.C14_violated_band_masks	propext, Classical.choice, Quot.sound
Karta.Grid.C14_violated_negative_spacing	propext, Classical.choice, Quot.sound
Karta.Grid.C14_violated_skew	propext, Classical.choice, Quot.sound
Karta.Grid.C15_gridpoints_partial	propext, Classical.choice, Quot.sound
Karta.Grid.C15_conservation	propext, Classical.choice, Quot.sound
Karta.Grid.C15_violated_negative_spacing	propext, Classical.choice, Quot.sound
Karta.Grid.C15_before_origin	propext, Classical.choice, Quot.sound
Karta.Grid.C15_violated_skew	propext, Classical.choice, Quot.sound
Karta.Grid.C16_bilinear_partial	propext, Classical.choice, Quot.sound
Karta.Grid.C16_bilinear_unsigned_partial	propext, Classical.choice, Quot.sound
Karta.Grid.C16_bilinear_signed_partial	propext, Classical.choice, Quot.sound
Karta.Grid.C16_centre_value	propext, Classical.choice, Quot.sound
Karta.Grid.C16_between	propext, Classical.choice, Quot.sound
Karta.Grid.C16_affine_surface	propext, Classical.choice, Quot.sound
Karta.Grid.C16_violated_first_row	propext, Classical.choice, Quot.sound
Karta.Grid.C16_violated_signed_outside	propext, Classical.choice, Quot.sound
Karta.Grid.C17_scalar	propext, Classical.choice, Quot.sound
Karta.Grid.C17_vector_partial	propext, Classical.choice, Quot.sound
Karta.Grid.C17_violated_multiband	propext, Classical.choice, Quot.sound
Karta.Grid.C17_violated_all_outside	propext, Classical.choice, Quot.sound
Karta.Grid.C18_set_nodata	propext, Classical.choice, Quot.sound
Karta.Grid.C19_center_extent_partial	propext, Classical.choice, Quot.sound
Karta.Grid.C19_edge_extent_partial	propext, Classical.choice, Quot.sound
Karta.Grid.C19_violated_opposite_skew	propext, Classical.choice, Quot.sound
Karta.Grid.C20_start_vertex	propext, Classical.choice, Quot.sound
Karta.Grid.C20_reversal_partial	propext, Classical.choice, Quot.sound
Karta.Grid.C20_outside_rows	propext, Classical.choice, Quot.sound
Karta.Grid.C20_outside_columns_partial	propext, Classical.choice, Quot.sound
Karta.Grid.C20_violated_oblong_cells	propext, Classical.choice, Quot.sound
Karta.Grid.C20_violated_slanted_rows	propext, Classical.choice, Quot.sound
Karta.Grid.C21_reads_esri_files_partial	propext, Classical.choice, Quot.sound
Karta.Grid.C21_violated_unreadable	propext, Classical.choice, Quot.sound
Karta.Grid.C22_geotiff_round_trip_partial	propext, Classical.choice, Quot.sound
Karta.Grid.C22_violated_skew	propext, Classical.choice, Quot.sound
Karta.Grid.C22_violated_single_row	propext, Classical.choice, Quot.sound
Karta.Grid.C23_file_band_agrees_partial	propext, Classical.choice, Quot.sound
Karta.Grid.C23_file_band_pixels	propext, Classical.choice, Quot.sound
Karta.Grid.C23_violated_single_row	propext, Classical.choice, Quot.sound
Karta.Vec.QT.C24_search_exact	propext, Classical.choice, Quot.sound
Karta.Vec.QT.C24_search_total	propext, Classical.choice, Quot.sound
Karta.Vec.QT.C25_build_terminates	propext, Classical.choice, Quot.sound
Karta.Vec.QT.C25_capacity_one_diverges	propext, Classical.choice, Quot.sound
Karta.RTree.C26_sound_partial	propext, Classical.choice, Quot.sound
Karta.RTree.C26_small_partial	propext, Classical.choice, Quot.sound
Karta.RTree.C26_violated_lost_geometry	propext, Classical.choice, Quot.sound
Karta.RTree.C26_violated_stale_box	propext, Classical.choice, Quot.sound
Karta.RTree.C26_violated_flat	propext, Classical.choice, Quot.sound
Karta.RTree.C26_two_levels_partial	propext, Classical.choice, Quot.sound
Karta.RTree.C26_violated_stale_parent	propext, Classical.choice, Quot.sound
Karta.RTree.C27_within_sound_partial	propext, Classical.choice, Quot.sound
Karta.RTree.C27_small_partial	propext, Classical.choice, Quot.sound
Karta.RTree.C27_violated_limit	propext, Classical.choice, Quot.sound
Karta.RTree.C27_two_levels_partial	propext, Classical.choice, Quot.sound
Karta.Tab.C28_setfield_getfield	propext, Classical.choice, Quot.sound
Karta.Tab.C28_setfield_history	propext, Classical.choice, Quot.sound
Karta.Tab.C28_wrong_length_refused	propext, Quot.sound
Karta.Tab.C28_empty_table_keeps_only_new_column	propext, Classical.choice, Quot.sound
Karta.Tab.C29_extend_appends_rows	propext, Classical.choice, Quot.sound
Karta.Tab.C29_merge_is_inner_join	propext, Classical.choice, Quot.sound
Karta.Tab.C29_merge_of_nothing	propext
Karta.Tab.C30_updated_with_table_partial	propext, Classical.choice, Quot.sound
Karta.Tab.C30_updated_with_dict_partial	propext, Classical.choice, Quot.sound
Karta.Tab.C30_unequal_length_refused	propext, Quot.sound
Karta.Tab.C30_violated_empty_table	propext
Karta.Tab.C31_subset_partial	propext, Quot.sound
Karta.Tab.C31_subset_single_field_partial	propext, Quot.sound
Karta.Tab.C31_violated_two_fields	propext
Karta.Vec.C32_bbox_tight	propext, Classical.choice, Quot.sound
Karta.Vec.C32_bbox_empty	propext
Karta.Vec.C32_multipart_bbox_tight	propext, Classical.choice, Quot.sound
Karta.Vec.C33_bboxes_overlap_exact	propext, Classical.choice, Quot.sound
Karta.Vec.C33_method_agrees	propext, Classical.choice, Quot.sound
Karta.Vec.C33_bbox_wf	propext, Classical.choice, Quot.sound
Karta.Vec.C34_intersection_exact	propext, Classical.choice, Quot.sound
Karta.Vec.C34_intersection_sound	propext, Classical.choice, Quot.sound
Karta.Vec.C35_all_intersections_exact	propext, Classical.choice, Quot.sound
Karta.Vec.C35_every_crossing_listed	propext, Classical.choice, Quot.sound
Karta.Vec.C35_symmetric	propext, Classical.choice, Quot.sound
Karta.Vec.Sweep.C36_sound_partial	propext, Classical.choice, Quot.sound
Karta.Vec.Sweep.C36_vertical_partial	propext, Classical.choice, Quot.sound
Karta.Vec.Sweep.C36_first_contact_partial	propext, Classical.choice, Quot.sound
Karta.Vec.Sweep.C36_exact_partial	propext, Classical.choice, Quot.sound
Karta.Vec.Sweep.C36_method_partial	propext, Classical.choice, Quot.sound
Karta.Vec.Sweep.C36_violated_self_crossing	propext, Classical.choice, Quot.sound
Karta.Vec.Sweep.C36_violated_touch	propext, Classical.choice, Quot.sound
Karta.Vec.Sweep.C36_violated_vertical_overlap	propext, Classical.choice, Quot.sound
Karta.Vec.Sweep.C36_violated_retrace	propext, Classical.choice, Quot.sound
Karta.Vec.C37_southeast_exact_partial	propext, Classical.choice, Quot.sound
Karta.Vec.C37_northwest_exact_partial	propext, Classical.choice, Quot.sound
Karta.Vec.C37_violated_southwest	propext, Classical.choice, Quot.sound
Karta.Vec.C37_violated_same_height	propext, Classical.choice, Quot.sound
Karta.Vec.C37_violated_opposite	propext, Classical.choice, Quot.sound
Karta.Vec.C37_violated_horizontal	propext, Classical.choice, Quot.sound
Karta.Vec.C37_violated_descending	propext, Classical.choice, Quot.sound
Karta.Vec.C37_ascending_exact_partial	propext, Classical.choice, Quot.sound
Karta.Vec.C37_vertical_exact_partial	propext, Classical.choice, Quot.sound
Karta.Vec.C37_true_on_common_line	propext, Classical.choice, Quot.sound
Karta.Vec.C38_invariance	propext, Classical.choice, Quot.sound
Karta.Vec.C38_separated_not_contained	propext, Classical.choice, Quot.sound
Karta.Vec.C38_outside_bbox	propext, Classical.choice, Quot.sound
Karta.Vec.C38_left_of_all_edges	propext, Classical.choice, Quot.sound
Karta.Vec.C38_convex	propext, Classical.choice, Quot.sound
Karta.Vec.C38_convex_clockwise	propext, Classical.choice, Quot.sound
Karta.Vec.C39_holes_excluded	propext, Classical.choice, Quot.sound
Karta.Vec.C39_area_minus_holes	propext, Classical.choice, Quot.sound
Karta.Vec.C40_area_invariance	propext, Classical.choice, Quot.sound
Karta.Vec.C40_area_affine_with_holes	propext, Classical.choice, Quot.sound
Karta.Vec.C40_triangle	propext, Classical.choice, Quot.sound
Karta.Vec.C40_empty	propext, Classical.choice, Quot.sound
Karta.Vec.C41_isclockwise_iff	propext, Classical.choice, Quot.sound
Karta.Vec.C41_invariance	propext, Classical.choice, Quot.sound
Karta.Vec.C42_affine_equivariant	propext, Classical.choice, Quot.sound
Karta.Vec.C42_invariance	propext, Classical.choice, Quot.sound
Karta.Vec.C42_defined	propext, Classical.choice, Quot.sound
Karta.Vec.C42_triangle	propext, Classical.choice, Quot.sound
Karta.Vec.C42_cut	propext, Classical.choice, Quot.sound
Karta.Tr.C43_acts_per_vertex	propext, Quot.sound
Karta.Tr.C43_planar_matrix_keeps_z	propext, Quot.sound
Karta.Tr.C43_spatial_acts_per_vertex	propext, Quot.sound
Karta.Tr.C43_refused	propext, Quot.sound
Karta.Tr.C43_compose	propext, Quot.sound
Karta.Tr.C43_violated_spatial_on_planar	propext, Classical.choice, Quot.sound
Karta.Tr.C43_shift	propext, Quot.sound
Karta.Tr.C43_shift_refused	propext, Quot.sound
Karta.Tr.C43_rotate_acts	propext, Classical.choice, Quot.sound
Karta.Tr.C43_rotation_rigid	propext, Classical.choice, Quot.sound
Karta.Tr.C43_point_agrees	propext, Quot.sound
Karta.Tr.C43_point_shift	propext, Quot.sound
Karta.Tr.C43_multipart	propext, Quot.sound
Karta.Vec.C44_nearest_on_segment_partial	propext, Classical.choice, Quot.sound
Karta.Vec.C44_violated_short_horizontal	propext, Classical.choice, Quot.sound
Karta.Vec.C44_zero_length	propext, Classical.choice, Quot.sound
Karta.Vec.C45_line_distance_partial	propext, Classical.choice, Quot.sound
Karta.Vec.C45_violated_closing_segment	propext, Classical.choice, Quot.sound
Karta.Vec.C45_violated_within_distance	propext, Classical.choice, Quot.sound
Karta.Vec.C45_within_distance_partial	propext, Classical.choice, Quot.sound
Karta.Vec.Hull.C46_encloses_partial	propext, Classical.choice, Quot.sound
Karta.Vec.Hull.C46_all_but_first_ray_partial	propext, Classical.choice, Quot.sound
Karta.Vec.Hull.C46_vertices_partial	propext, Classical.choice, Quot.sound
Karta.Vec.Hull.C46_violated_lost_vertex	propext, Classical.choice, Quot.sound
Karta.Vec.Hull.C46_violated_collinear	propext, Classical.choice, Quot.sound
Karta.Vec.Hull.C46_violated_raises	propext, Classical.choice, Quot.sound
Karta.Cache.C47_recomputed_partial	propext, Quot.sound
Karta.Cache.C47_queries	propext, Quot.sound
Karta.Cache.C47_violated_assignment	propext, Classical.choice, Quot.sound
Karta.Cache.C47_violated_extend	propext
Karta.Geod.C48_reduce	propext, Classical.choice, Quot.sound
Karta.Geod.C48_unroll	propext, Classical.choice, Quot.sound
Karta.Geod.C49_canonical	propext, Classical.choice, Quot.sound
Karta.Geod.C50_antisymmetric	propext, Classical.choice, Quot.sound
Karta.Geod.C50_meaning	propext, Classical.choice, Quot.sound
Karta.Geod.C50_method	propext, Classical.choice, Quot.sound
Karta.Tile.C51_tile	propext, Classical.choice, Quot.sound
Karta.Tile.C51_range	propext, Classical.choice, Quot.sound
Karta.Tile.C51_children	propext, Classical.choice, Quot.sound
Karta.Geod.Brent.C52_answer	propext, Classical.choice, Quot.sound
Karta.Geod.Brent.C52_errors	propext, Classical.choice, Quot.sound
Karta.Geod.Brent.C52_root_at_end	propext, Classical.choice, Quot.sound
Karta.Surface.C53_plane	propext, Classical.choice, Quot.sound
Karta.Surface.C53_linear	propext, Classical.choice, Quot.sound
Karta.Surface.C53_offset	propext, Classical.choice, Quot.sound
Karta.Surface.C53_divergence_plane	propext, Classical.choice, Quot.sound
Karta.Surface.C53_divergence_offset	propext, Classical.choice, Quot.sound
Karta.Surface.C53_divergence_linear	propext, Classical.choice, Quot.sound
Karta.Surface.C53_slope_interior	propext, Classical.choice, Quot.sound
Karta.Surface.C53_slope_plane	propext, Classical.choice, Quot.sound
Karta.Shape.C54_terminates	propext, Classical.choice, Quot.sound
Karta.Shape.C54_distinct	propext, Classical.choice, Quot.sound
Karta.Shape.C54_length_partial	propext, Classical.choice, Quot.sound
Karta.Shape.C54_id_partial	propext, Classical.choice, Quot.sound
Karta.Shape.C54_violated_id	propext, Classical.choice, Quot.sound
Karta.Shape.C54_violated_long	propext, Classical.choice, Quot.sound
Karta.Tab.C55_properties_partitioned	propext
Karta.Tab.C55_each_property_in_exactly_one	propext
Karta.Tab.C56_parts_inner_join	propext, Classical.choice, Quot.sound
Karta.Tab.C57_without_data	propext
Karta.Tab.C57_one_row_per_part_partial	propext, Classical.choice, Quot.sound
Karta.Tab.C57_wrong_length_refused	propext, Quot.sound
Karta.Tab.C57_violated_parts_without_common_keys	propext
Karta.Tab.C57_violated_string_property	propext
Karta.Tab.C57_violated_table_argument	propext
Karta.Tab.C58_part_attributes_partial	propext, Quot.sound
Karta.Tab.C58_violated_assigned_point	propext
Karta.Tab.C58_assigned_point_partial	propext, Classical.choice, Quot.sound
Karta.Tab.C59_slice_keeps_attributes	propext, Classical.choice, Quot.sound
Karta.Vec.QT.C60_within_bbox_agrees	propext, Classical.choice, Quot.sound
Karta.Vec.QT.C60_within_radius_agrees	propext, Classical.choice, Quot.sound
Karta.Vec.C61_cut	propext, Classical.choice, Quot.sound
Karta.Vec.C62_just_right_partial	propext, Classical.choice, Quot.sound
Karta.Vec.C62_convex_partial	propext, Classical.choice, Quot.sound
Karta.Vec.C62_violated_upper_edge	propext, Classical.choice, Quot.sound
Karta.Vec.C62_rectangle_partial	propext, Classical.choice, Quot.sound
Karta.Tr.C63_violated_shift_drops_holes	propext, Classical.choice, Quot.sound
Karta.Tr.C63_no_holes_partial	propext, Quot.sound
Karta.Grid.C64_vertex_coords_partial	propext, Classical.choice, Quot.sound
Karta.Grid.C64_violated_last_row	propext, Classical.choice, Quot.sound
Karta.Grid.C65_clip_beyond_far_edges_partial	propext, Classical.choice, Quot.sound
Karta.Grid.C65_violated_box_outside_grid	propext, Classical.choice, Quot.sound
Karta.Grid.C66_away_partial	propext, Classical.choice, Quot.sound
Karta.Grid.C66_corner_polygons_partial	propext, Classical.choice, Quot.sound
Karta.Grid.C66_violated_slanting_side	propext, Classical.choice, Quot.sound
Karta.Grid.C66_keeps_or_erases	propext, Classical.choice, Quot.sound
Karta.Grid.C66_raises	propext, Classical.choice, Quot.sound
Karta.Grid.C66_rectangles_partial	propext, Classical.choice, Quot.sound
Karta.Grid.C66_violated_negative_spacing	propext, Classical.choice, Quot.sound
Karta.Grid.C66_violated_oblong_cells	propext, Classical.choice, Quot.sound
Karta.Grid.C66_same_box_partial	propext, Classical.choice, Quot.sound
Karta.Grid.C67_accepts_iff_partial	propext, Classical.choice, Quot.sound
Karta.Grid.C67_violated_skew_accepted	propext, Classical.choice, Quot.sound
Karta.Grid.C68_geotiff_places_pixels	propext, Classical.choice, Quot.sound
Karta.Grid.C69_read_places_pixels_partial	propext, Classical.choice, Quot.sound
Karta.Grid.C69_band_selection	propext, Classical.choice, Quot.sound
Karta.Grid.C69_violated_skew	propext, Classical.choice, Quot.sound
Karta.Grid.C70_violated_transforms_not_compared	propext, Classical.choice, Quot.sound
Karta.Grid.C70_violated_nan_order	propext, Classical.choice, Quot.sound
Karta.Grid.C70_sizes_agree_partial	propext, Classical.choice, Quot.sound
Karta.Grid.C71_dtype_round_trip_partial	propext
Karta.Grid.C71_violated	propext
Karta.RTree.C72_bbox_small_partial	propext, Classical.choice, Quot.sound
Karta.RTree.C72_violated_after_division	propext, Classical.choice, Quot.sound
Karta.RTree.C72_two_levels_partial	propext, Classical.choice, Quot.sound
Karta.RTree.C73_total	propext, Classical.choice, Quot.sound
Karta.RTree.C73_capacity	propext, Classical.choice, Quot.sound
Karta.Geod.C74_exact_partial	propext, Classical.choice, Quot.sound
Karta.Geod.C74_one_way_partial	propext, Classical.choice, Quot.sound
Karta.Geod.C74_violated_back_and_forth	propext, Classical.choice, Quot.sound
Karta.Geod.C75_between_partial	propext, Classical.choice, Quot.sound
Karta.Geod.C75_violated_opposite	propext, Classical.choice, Quot.sound
Karta.Geod.C76_no_crossing_partial	propext, Classical.choice, Quot.sound
Karta.Geod.C76_last_step_partial	propext, Classical.choice, Quot.sound
Karta.Geod.C76_violated_after_crossing	propext, Classical.choice, Quot.sound
Karta.Geod.C76_violated_180	propext, Classical.choice, Quot.sound
Karta.Geod.C77_equatorial_partial	propext, Classical.choice, Quot.sound
Karta.Geod.C77_violated_long_way	propext, Classical.choice, Quot.sound
Karta.Surface.C78_gradient	propext, Classical.choice, Quot.sound
Karta.Surface.C78_divergence_partial	propext, Classical.choice, Quot.sound
Karta.Surface.C78_violated_divergence	propext, Classical.choice, Quot.sound
Karta.Surface.C79_size_partial	propext, Classical.choice, Quot.sound
Karta.Surface.C79_violated_one_row	propext, Classical.choice, Quot.sound
Karta.Surface.C79_slope_nonneg_partial	propext, Classical.choice, Quot.sound
Karta.Surface.C79_violated_negative_slope	propext, Classical.choice, Quot.sound
Karta.Surface.C80_east_west_partial	propext, Classical.choice, Quot.sound
Karta.Surface.C80_mirrored_partial	propext, Classical.choice, Quot.sound
Karta.Surface.C80_violated_north	propext, Classical.choice, Quot.sound
Karta.Surface.C81_unit_partial	propext, Classical.choice, Quot.sound
Karta.Surface.C81_violated_lone_component	propext, Classical.choice, Quot.sound
Karta.Shape.C82_columns_partial	propext, Classical.choice, Quot.sound
Karta.Shape.C82_rows_partial	propext, Classical.choice, Quot.sound
Karta.Shape.C82_violated_late_value	propext, Classical.choice, Quot.sound
Karta.Cache.C83_plain_partial	propext, Classical.choice, Quot.sound
Karta.Cache.C83_fresh_partial	propext, Classical.choice, Quot.sound
Karta.Cache.C83_violated_indexed	propext, Classical.choice, Quot.sound
Karta.Geod.C84_forward_inverse	propext, Classical.choice, Quot.sound
Karta.Geod.C84_inverse_forward	propext, Classical.choice, Quot.sound
Karta.Geod.C84_inverse_symmetric	propext, Classical.choice, Quot.sound
Karta.Geod.C84_compass	propext, Classical.choice, Quot.sound
Karta.Geod.C85_walk_there	propext, Classical.choice, Quot.sound
Karta.Geod.C85_azimuth_defined	propext, Classical.choice, Quot.sound
Karta.Geod.C85_after_walk	propext, Classical.choice, Quot.sound
Karta.Geod.C85_violated_meridian	propext, Classical.choice, Quot.sound
Karta.Geod.C85_geographic_partial	propext, Classical.choice, Quot.sound
Karta.Geod.C86_metric_partial	propext, Classical.choice, Quot.sound
Karta.Geod.C86_planar	propext, Classical.choice, Quot.sound
Karta.Geod.C86_violated_mixed	propext, Classical.choice, Quot.sound
Karta.Geod.Sphere.C87_great_circle	propext, Classical.choice, Quot.sound
Karta.Geod.Sphere.C87_compiled	propext, Classical.choice, Quot.sound
Karta.Geod.Sphere.C87_metric	propext, Classical.choice, Quot.sound
Karta.Geod.Sphere.C88_direction_partial	propext, Classical.choice, Quot.sound
Karta.Geod.Sphere.C88_round_trip_partial	propext, Classical.choice, Quot.sound
Karta.Geod.Sphere.C88_violated_south	propext, Classical.choice, Quot.sound
Karta.Geod.Sphere.C88_violated_pole	propext, Classical.choice, Quot.sound
Karta.Geod.Sphere.C88_violated_west	propext, Classical.choice, Quot.sound
Karta.Geod.Sphere.C89_violated_far_side	propext, Classical.choice, Quot.sound
Karta.Geod.Sphere.C89_on_both_partial	propext, Classical.choice, Quot.sound
Karta.Geod.Sphere.C89_between_partial	propext, Classical.choice, Quot.sound
Karta.Geod.Sphere.C89_meridian_partial	propext, Classical.choice, Quot.sound
Karta.Geod.Sphere.C89_violated_south	propext, Classical.choice, Quot.sound
Karta.Geod.Sphere.C90_violated_far_side	propext, Classical.choice, Quot.sound
Karta.Geod.Sphere.C90_violated_order	propext, Classical.choice, Quot.sound
Karta.Geod.Sphere.C90_violated_southward	propext, Classical.choice, Quot.sound
Karta.Geod.Sphere.C90_all_cross_partial	propext, Classical.choice, Quot.sound
Karta.Geod.Sphere.C90_violated_one_miss	propext, Classical.choice, Quot.sound
Karta.Along.C91_cumulative	propext, Classical.choice, Quot.sound
Karta.Along.C91_increasing	propext, Classical.choice, Quot.sound
Karta.Along.C91_displacement	propext, Classical.choice, Quot.sound
Karta.Along.C92_equal_spacing_partial	propext, Classical.choice, Quot.sound
Karta.Along.C92_violated_short	propext, Classical.choice, Quot.sound
Karta.Along.C93_spacing_partial	propext, Classical.choice, Quot.sound
Karta.Along.C93_violated_short_segments	propext, Classical.choice, Quot.sound
Karta.Geod.Geodesic.C94_great_circle_partial	propext, Classical.choice, Quot.sound
Karta.Geod.Geodesic.C94_return_partial	propext, Classical.choice, Quot.sound
Karta.Geod.Geodesic.C94_distance_partial	propext, Classical.choice, Quot.sound
Karta.Geod.Geodesic.C94_equator	propext, Classical.choice, Quot.sound
Karta.Geod.Geodesic.C95_reach	propext, Classical.choice, Quot.sound
Karta.Geod.Geodesic.C95_arrival	propext, Classical.choice, Quot.sound
Karta.Geod.Geodesic.C96_area_partial	propext, Classical.choice, Quot.sound
Karta.Geod.Geodesic.C96_violated_equator	propext, Classical.choice, Quot.sound
Karta.Geod.Geodesic.C96_violated_dateline	propext, Classical.choice, Quot.sound
Karta.Geod.Geodesic.C97_sphere_partial	propext, Classical.choice, Quot.sound
Karta.Geod.Geodesic.C97_violated_cancelling	propext, Classical.choice, Quot.sound
Karta.Vec.C98_ring	propext, Classical.choice, Quot.sound
Karta.Vec.C98_contains_constant	propext, Classical.choice, Quot.sound
Karta.Vec.C98_reaches_outside	propext, Classical.choice, Quot.sound
Karta.Vec.C98_crossing	propext, Classical.choice, Quot.sound
Karta.Vec.C98_enter	propext, Classical.choice, Quot.sound
Karta.Multi.C99_sound_partial	propext, Classical.choice, Quot.sound
Karta.Multi.C99_exact_partial	propext, Classical.choice, Quot.sound
Karta.Multi.C99_violated_hole	propext, Classical.choice, Quot.sound
Karta.Multi.C99_violated_flat	propext, Classical.choice, Quot.sound
Karta.Multi.C100_polygon_partial	propext, Classical.choice, Quot.sound
Karta.Multi.C100_line_partial	propext, Classical.choice, Quot.sound
Karta.Multi.C100_sound_partial	propext, Classical.choice, Quot.sound
Karta.Multi.C100_violated_flat	propext, Classical.choice, Quot.sound
Karta.Join.C101_lines	propext, Classical.choice, Quot.sound
Karta.Join.C101_points	propext, Classical.choice, Quot.sound
Karta.Join.C101_polygons_partial	propext, Classical.choice, Quot.sound
Karta.Join.C101_violated_ranks	propext, Classical.choice, Quot.sound
Karta.Join.C101_violated_holes	propext, Quot.sound
Karta.Fit.C102_best	propext, Classical.choice, Quot.sound
Karta.Fit.C102_unique	propext, Classical.choice, Quot.sound
Karta.Fit.C102_recovers	propext, Classical.choice, Quot.sound
Karta.Fit.C102_refuses	propext, Quot.sound
Karta.Fit.C102_apply	propext, Classical.choice, Quot.sound
Karta.NearProj.C103_near	propext, Classical.choice, Quot.sound
Karta.NearProj.C103_distance	propext, Classical.choice, Quot.sound
Karta.NearProj.C103_ends	propext, Classical.choice, Quot.sound
Karta.NearProj.C103_defaults	propext, Classical.choice, Quot.sound
Karta.NearProj.C103_convergence_error	propext, Classical.choice, Quot.sound
Karta.Geod.LatBound.C104_segment_partial	propext, Classical.choice, Quot.sound
Karta.Geod.LatBound.C104_box_partial	propext, Classical.choice, Quot.sound
Karta.Geod.LatBound.C104_violated_crossing	propext, Classical.choice, Quot.sound
Karta.Exch.C105_vertices_partial	propext, Quot.sound
Karta.Exch.C105_polygons_partial	propext, Classical.choice, Quot.sound
Karta.Exch.C105_properties_partial	propext, Quot.sound
Karta.Exch.C105_violated_crs_and_data	propext
Karta.Exch.C105_violated_properties	propext, Quot.sound
Karta.Exch.C105_violated_multipolygon	propext, Quot.sound
Karta.Exch.C105_violated_empty_part	propext, Quot.sound
Karta.Exch.C106_points_and_lines_partial	propext, Quot.sound
Karta.Exch.C106_polygons_partial	propext, Classical.choice, Quot.sound
Karta.Exch.C106_violated_holes	propext, Quot.sound
Karta.Exch.C106_violated_converted_holes	propext
Karta.Exch.C106_violated_no_urn	propext
Karta.Exch.C106_violated_multipolygon	propext, Quot.sound
Karta.Exch.C106_multiparts_partial	propext, Classical.choice, Quot.sound
Karta.Exch.C106_violated_same_length	propext, Classical.choice, Quot.sound
Karta.Exch.C106_violated_empty_part	propext, Quot.sound
Karta.Exch.C107_single_partial	propext
Karta.Exch.C107_no_fields_partial	propext
Karta.Exch.C107_violated_multiparts	propext, Classical.choice, Quot.sound
Karta.Gpx.C108_tracks_and_routes_partial	propext, Classical.choice, Quot.sound
Karta.Gpx.C108_violated_extensions	propext, Classical.choice, Quot.sound
Karta.Gpx.C108_violated_waypoints	propext, Quot.sound
Karta.Gpx.C108_lines_partial	propext, Classical.choice, Quot.sound
Karta.Gpx.C109_tracks_partial	propext, Classical.choice, Quot.sound
Karta.Gpx.C109_violated_lines	propext
Karta.Gpx.C109_violated_height	propext, Classical.choice, Quot.sound
Karta.Gpx.C109_violated_routes	propext
Karta.Gpx.C109_routes_partial	propext
Karta.Gpx.C109_waypoints	propext, Classical.choice, Quot.sound
Karta.Grid.C110_nearest_partial	propext, Classical.choice, Quot.sound
Karta.Grid.C110_spacing_refused	propext, Classical.choice, Quot.sound
Karta.Grid.C110_method_refused	propext, Classical.choice, Quot.sound
Karta.Grid.C110_violated_single_column	propext, Classical.choice, Quot.sound
Karta.Grid.C110_violated_bands	propext, Classical.choice, Quot.sound
Karta.Grid.C110_violated_skew	propext, Classical.choice, Quot.sound
Karta.Grid.C111_own_spacing_partial	propext, Classical.choice, Quot.sound
Karta.Grid.C111_violated_bands	propext, Classical.choice, Quot.sound
Karta.Grid.C111_violated_skew	propext, Classical.choice, Quot.sound
Karta.Grid.C112_linear_partial	propext, Classical.choice, Quot.sound
Karta.Grid.C112_violated_skew	propext, Classical.choice, Quot.sound
Karta.Grid.C113_cellwise	propext, Classical.choice, Quot.sound
Karta.Grid.C113_mismatch_refused	propext
Karta.Grid.C113_bands_refused	propext, Classical.choice, Quot.sound
Karta.Grid.C113_sub_add	propext, Classical.choice, Quot.sound
Karta.Grid.C113_nodata_summed	propext, Classical.choice, Quot.sound
Karta.Grid.C114_centers_partial	propext, Classical.choice, Quot.sound
Karta.Grid.C114_bbox_partial	propext, Classical.choice, Quot.sound
Karta.Grid.C114_violated_right	propext, Classical.choice, Quot.sound
Karta.Grid.C114_violated_negative_rows	propext, Classical.choice, Quot.sound
Karta.Grid.C114_violated_bands	propext, Classical.choice, Quot.sound
Karta.Grid.C115_max_min	propext, Classical.choice, Quot.sound
Karta.Grid.C115_minmax	propext, Classical.choice, Quot.sound
Karta.Grid.C115_violated_bands	propext, Classical.choice, Quot.sound
Karta.Grid.C116_align_origin_partial	propext, Classical.choice, Quot.sound
Karta.Grid.C116_violated_bands	propext, Classical.choice, Quot.sound
Karta.Grid.C116_violated_large_step	propext, Classical.choice, Quot.sound
Karta.Obj.C117_refl	propext, Quot.sound
Karta.Obj.C117_symm	propext, Quot.sound
Karta.Obj.C117_exact_partial	propext, Quot.sound
Karta.Obj.C117_trans_partial	propext, Classical.choice, Quot.sound
Karta.Obj.C117_violated_holes	propext, Quot.sound
Karta.Obj.C117_violated_ranks	propext, Quot.sound
Karta.Obj.C117_violated_transitive	propext, Quot.sound
Karta.Obj.C118_points_partial	propext, Quot.sound
Karta.Obj.C118_others_partial	propext, Quot.sound
Karta.Obj.C118_violated_names	propext, Quot.sound
Karta.Obj.C118_violated_zero	propext, Quot.sound
Karta.Obj.C119_item	propext, Quot.sound
Karta.Obj.C119_item_refused	propext, Quot.sound
Karta.Obj.C119_iter	propext, Quot.sound
Karta.Obj.C119_slice_line	propext, Classical.choice, Quot.sound
Karta.Obj.C119_slice_refused	propext
Karta.Obj.C119_slice_polygon_partial	propext, Classical.choice, Quot.sound
Karta.Obj.C119_violated_holes	propext, Classical.choice, Quot.sound
Karta.Obj.C120_to_line	propext, Classical.choice, Quot.sound
Karta.Obj.C120_multipoint_partial	propext
Karta.Obj.C120_line_partial	propext
Karta.Obj.C120_violated_line	propext
Karta.Obj.C120_violated_there_and_back	propext, Classical.choice, Quot.sound
Karta.Obj.C121_nearest_vertex	propext, Quot.sound
Karta.Obj.C121_nearest_refused	propext, Quot.sound
Karta.Obj.C121_any_within	propext, Quot.sound
Karta.Share.C122_properties	propext, Classical.choice, Quot.sound
Karta.Share.C122_assigned_points	propext, Classical.choice, Quot.sound
Karta.Share.C122_fields	propext, Classical.choice, Quot.sound
Karta.Share.C122_made	propext, Quot.sound
Karta.Share.C122_shared_shifted	propext
Karta.Share.C122_shared_vertex	propext
Karta.Share.C123_moved_partial	propext, Classical.choice, Quot.sound
Karta.Share.C123_kept_partial	propext, Classical.choice, Quot.sound
Karta.Share.C123_violated_column	propext
Karta.Share.C123_violated_added	propext
Karta.Ellps.C124_named_are_ellipsoids	propext, Classical.choice, Quot.sound
Karta.Ellps.C124_ellps	propext, Classical.choice, Quot.sound
Karta.Ellps.C124_datum_partial	propext, Classical.choice, Quot.sound
Karta.Ellps.C124_violated_carthage	propext, Classical.choice, Quot.sound
Karta.Ellps.C124_axes_partial	propext, Classical.choice, Quot.sound
Karta.Ellps.C124_flattening_partial	propext, Classical.choice, Quot.sound
Karta.Ellps.C124_refused	propext, Classical.choice, Quot.sound
Karta.Ellps.C124_violated_sphere	propext, Classical.choice, Quot.sound
Karta.Ellps.C124_violated_alpha	propext, Classical.choice, Quot.sound
Karta.Ellps.C124_wkt_partial	propext, Classical.choice, Quot.sound
Karta.Ellps.C124_violated_datum	propext, Classical.choice, Quot.sound
Karta.ShpFile.C125_order_partial	propext, Classical.choice, Quot.sound
Karta.ShpFile.C125_null_skipped	propext
Karta.ShpFile.C125_violated_height	propext, Quot.sound
Karta.ShpFile.C125_violated_multipolygon	propext, Quot.sound
Karta.ShpFile.C125_violated_mixed	propext, Classical.choice, Quot.sound
Karta.ShpFile.C125_empty_refused	propext, Quot.sound
Karta.ShpFile.C126_attributes_partial	propext, Classical.choice, Quot.sound
Karta.ShpFile.C126_violated_dates	propext, Quot.sound
Karta.ShpFile.C126_violated_none	propext, Classical.choice, Quot.sound
Karta.ShpFile.C127_written	propext, Classical.choice, Quot.sound
Karta.ShpFile.C127_violated_latlong	propext, Classical.choice, Quot.sound
Karta.ShpFile.C127_violated_cartesian	propext, Classical.choice, Quot.sound
Karta.ShpFile.C127_read_partial	propext, Classical.choice, Quot.sound
Karta.ShpFile.C127_violated_sphere	propext, Classical.choice, Quot.sound
Karta.ShpFile.C127_violated_datum	propext, Classical.choice, Quot.sound
Karta.Tab.C128_history_partial	propext, Classical.choice, Quot.sound
Karta.Tab.C128_refused	propext, Quot.sound
Karta.Tab.C128_no_table	propext
Karta.Tab.C128_violated_emptied	propext
Karta.Tab.C128_violated_short_row	propext, Quot.sound
Karta.Tab.C129_violated_always	propext
Karta.Tab.C129_violated_empty	propext
Karta.Tab.C129_no_values_partial	propext
Karta.Profile.C130_point_partial	
Karta.Profile.C130_multipoint_partial	propext, Quot.sound
Karta.Profile.C130_arrays_partial	propext, Quot.sound
Karta.Profile.C130_refused	
Karta.Profile.C130_nearest_point	propext, Classical.choice, Quot.sound
Karta.Profile.C130_violated_scalars	
Karta.Profile.C130_violated_own_system	
Karta.Profile.C131_profile_partial	propext, Classical.choice, Quot.sound
Karta.Profile.C131_violated_negative_spacing	propext, Classical.choice, Quot.sound
Karta.Mem.C132_balanced	propext, Classical.choice, Quot.sound
Karta.Mem.C132_separate	propext, Classical.choice, Quot.sound
Karta.Mem.C133_searches_partial	propext, Classical.choice, Quot.sound
Karta.Mem.C133_violated_leak	propext, Classical.choice, Quot.sound
Karta.Mem.C134_violated_leak	propext, Classical.choice, Quot.sound
Karta.Mem.C134_violated_failed_build	propext, Classical.choice, Quot.sound
Karta.Mem.C134_violated_double_free	propext, Classical.choice, Quot.sound
Karta.Mem.C134_small_partial	propext, Classical.choice, Quot.sound
Karta.Mem.C135_search_partial	propext, Classical.choice, Quot.sound
Karta.Mem.C135_violated_leak	propext, Classical.choice, Quot.sound
Karta.Geod.Polar.C136_exact_partial	propext, Classical.choice, Quot.sound
Karta.Geod.Polar.C136_right_partial	propext, Classical.choice, Quot.sound
Karta.Geod.Polar.C136_violated_outside	propext, Classical.choice, Quot.sound
Karta.Geod.Polar.C136_violated_inside	propext, Classical.choice, Quot.sound
Karta.Geod.Polar.C136_holes	propext, Classical.choice, Quot.sound
Karta.Geod.Polar.C136_away	propext, Classical.choice, Quot.sound
Karta.Geod.Cross.C137_point_partial	propext, Classical.choice, Quot.sound
Karta.Geod.Cross.C137_meridian_partial	propext, Classical.choice, Quot.sound
Karta.Geod.Cross.C137_violated_same_circle	propext, Classical.choice, Quot.sound
Karta.Geod.Cross.C137_violated_dateline	propext, Classical.choice, Quot.sound
Karta.Geod.Cross.C137_pair_partial	propext, Classical.choice, Quot.sound
Karta.Geod.Cross.C138_one_way_partial	propext, Classical.choice, Quot.sound
Karta.Geod.Cross.C138_found_partial	propext, Classical.choice, Quot.sound
Karta.Geod.Cross.C138_violated_turn	propext, Classical.choice, Quot.sound
Karta.Geod.Cross.C138_violated_missed	propext, Classical.choice, Quot.sound
Karta.Geod.HullSph.C139_encloses_partial	propext, Classical.choice, Quot.sound
Karta.Geod.HullSph.C139_all_but_first_arc_partial	propext, Classical.choice, Quot.sound
Karta.Geod.HullSph.C139_violated_repeated_vertex	propext, Classical.choice, Quot.sound
Karta.Geod.HullSph.C139_violated_dateline	propext, Classical.choice, Quot.sound
Karta.Length.C140_length	propext, Classical.choice, Quot.sound
Karta.Length.C140_join	propext, Classical.choice, Quot.sound
Karta.Length.C140_metric	propext, Classical.choice, Quot.sound
Karta.Length.C140_planar	propext, Classical.choice, Quot.sound
Karta.Length.C140_scaled	propext, Classical.choice, Quot.sound
Karta.Length.C140_agrees_partial	propext, Classical.choice, Quot.sound
Karta.Length.C140_violated_height	propext, Classical.choice, Quot.sound
Karta.Length.C140_perimeter	propext, Classical.choice, Quot.sound
Karta.Length.C140_perimeter_invariant	propext, Classical.choice, Quot.sound
Karta.Float.C141_positions	propext, Classical.choice, Quot.sound
Karta.Float.C141_cell	propext, Classical.choice, Quot.sound
Karta.Float.C141_centre	propext, Classical.choice, Quot.sound
Karta.Float.C142_resize_partial	propext, Classical.choice, Quot.sound
Karta.Float.C142_clip_partial	propext, Classical.choice, Quot.sound
Karta.Float.C142_clip_window_partial	propext, Classical.choice, Quot.sound
Karta.Float.C142_violated_resize	propext, Classical.choice, Quot.sound
Karta.Float.C142_violated_clip	propext, Classical.choice, Quot.sound
Karta.Float.C143_merge_partial	propext, Classical.choice, Quot.sound
Karta.Float.C143_violated_misplaced	propext, Classical.choice, Quot.sound
Karta.Float.C143_violated_refused	propext, Classical.choice, Quot.sound
Karta.Float.C144_gridpoints_partial	propext, Classical.choice, Quot.sound
Karta.Float.C144_resample_partial	propext, Classical.choice, Quot.sound
Karta.Float.C144_violated_resample	propext, Classical.choice, Quot.sound
Karta.Float.C144_violated_gridpoints	propext, Classical.choice, Quot.sound
Karta.Float.QT.C145_index_partial	propext, Classical.choice, Quot.sound
Karta.Float.QT.C145_violated_lost	propext, Classical.choice, Quot.sound
Karta.Float.QT.C145_violated_endless	propext, Classical.choice, Quot.sound
Karta.Float.QT.C145_radius_partial	propext, Classical.choice, Quot.sound
Karta.Float.QT.C145_violated_radius	propext, Classical.choice, Quot.sound
Karta.Float.RT.C146_overlap_partial	propext, Classical.choice, Quot.sound
Karta.Float.RT.C146_units_partial	propext, Classical.choice, Quot.sound
Karta.Float.RT.C146_violated_missed	propext, Classical.choice, Quot.sound
Karta.Float.RT.C146_violated_within	propext, Classical.choice, Quot.sound
Karta.Float.RT.C146_violated_bbox	propext, Classical.choice, Quot.sound
Karta.Float.C147_clear_partial	propext, Classical.choice, Quot.sound
Karta.Float.C147_units_partial	propext, Classical.choice, Quot.sound
Karta.Float.C147_violated_gap	propext, Classical.choice, Quot.sound
Karta.Float.C147_violated_both	propext, Classical.choice, Quot.sound
Karta.Float.C148_close_partial	propext, Classical.choice, Quot.sound
Karta.Float.C148_units_partial	propext, Classical.choice, Quot.sound
Karta.Float.C148_violated_180	propext, Classical.choice, Quot.sound
Karta.Float.C148_violated_opposite	propext, Classical.choice, Quot.sound
Karta.Float.C148_violated_360	propext, Classical.choice, Quot.sound
Karta.Float.C149_close_partial	propext, Classical.choice, Quot.sound
Karta.Float.C149_violated_outside	propext, Classical.choice, Quot.sound
Karta.Float.C149_violated_180	propext, Classical.choice, Quot.sound
Karta.Float.C149_units_partial	propext, Classical.choice, Quot.sound
Karta.Geod.Geodesic.C150_start	propext, Classical.choice, Quot.sound
Karta.Geod.Geodesic.C150_direction	propext, Classical.choice, Quot.sound
Karta.Geod.Geodesic.C150_shift	propext, Classical.choice, Quot.sound
Karta.Geod.Geodesic.C150_mirror	propext, Classical.choice, Quot.sound
Karta.Geod.Geodesic.C150_violated_equator	propext, Classical.choice, Quot.sound
Karta.Geod.Geodesic.C150_flat	propext, Classical.choice, Quot.sound
Karta.Grid.C151_cells_partial	propext, Classical.choice, Quot.sound
Karta.Grid.C151_values_partial	propext, Classical.choice, Quot.sound
Karta.Grid.C151_all	propext, Classical.choice, Quot.sound
Karta.Grid.C151_violated_negative	propext, Classical.choice, Quot.sound
Karta.Grid.C151_violated_beyond	propext, Classical.choice, Quot.sound
Karta.Grid.C151_violated_single_row	propext, Classical.choice, Quot.sound
Karta.Grid.C151_violated_empty	propext, Classical.choice, Quot.sound
Karta.Tab.C152_columns_partial	propext, Classical.choice, Quot.sound
Karta.Tab.C152_refused	propext, Classical.choice, Quot.sound
Karta.Tab.C152_lossless	propext, Classical.choice, Quot.sound
Karta.Tab.C152_violated_nesting	propext, Classical.choice, Quot.sound
Karta.Tab.C152_violated_unsigned	propext, Quot.sound
Karta.Obj.C153_collection_partial	propext, Quot.sound
Karta.Obj.C153_own_parts	propext, Quot.sound
Karta.Obj.C153_vertices	propext, Classical.choice, Quot.sound
Karta.Obj.C153_violated_holes	propext, Quot.sound
Karta.Float.C154_inside_partial	propext, Classical.choice, Quot.sound
Karta.Float.C154_near	propext, Classical.choice, Quot.sound
Karta.Float.C154_order	propext, Classical.choice, Quot.sound
Karta.Float.C154_corner_exact	propext, Classical.choice, Quot.sound
Karta.Float.C154_violated_corner	propext, Classical.choice, Quot.sound
Karta.Float.C154_violated_beyond	propext, Classical.choice, Quot.sound
Karta.Float.C155_area_units_partial	propext, Classical.choice, Quot.sound
Karta.Float.C155_area_error_partial	propext, Classical.choice, Quot.sound
Karta.Float.C155_clockwise_clear_partial	propext, Classical.choice, Quot.sound
Karta.Float.C155_clockwise_units_partial	propext, Classical.choice, Quot.sound
Karta.Float.C155_centroid_units_partial	propext, Classical.choice, Quot.sound
Karta.Float.C155_violated_centroid	propext, Classical.choice, Quot.sound
Karta.Float.C155_violated_clockwise	propext, Classical.choice, Quot.sound
Karta.Float.C155_violated_area	propext, Classical.choice, Quot.sound
Karta.Float.C156_clear_partial	propext, Classical.choice, Quot.sound
Karta.Float.C156_units_partial	propext, Classical.choice, Quot.sound
Karta.Float.C156_test_units_partial	propext, Classical.choice, Quot.sound
Karta.Float.C156_count_units_partial	propext, Classical.choice, Quot.sound
Karta.Float.C156_violated_missed	propext, Classical.choice, Quot.sound
Karta.Float.C156_violated_order	propext, Classical.choice, Quot.sound
Karta.Verts.C157_own	propext, Quot.sound
Karta.Verts.C157_columns	propext, Classical.choice, Quot.sound
Karta.Verts.C157_coords	propext, Quot.sound
Karta.Verts.C157_vertices_partial	propext, Quot.sound
Karta.Verts.C157_agree	propext, Quot.sound
Karta.Verts.C157_point_partial	propext
Karta.Verts.C157_multiline_partial	propext, Quot.sound
Karta.Verts.C157_multipolygon_partial	propext, Quot.sound
Karta.Verts.C157_refused	propext
Karta.Verts.C157_violated_line	propext
Karta.Verts.C157_violated_heights	propext, Quot.sound
Karta.Verts.C157_violated_holes	propext
Karta.Verts.C157_violated_hole_place	propext, Quot.sound
Karta.Verts.C158_points_partial	propext
Karta.Verts.C158_lines_partial	propext, Quot.sound
Karta.Verts.C158_lines_same	propext, Quot.sound
Karta.Verts.C158_polygons_partial	propext, Quot.sound
Karta.Verts.C158_violated_holes	propext, Quot.sound
Karta.Verts.C158_violated_heights	propext
Karta.Verts.C158_violated_points	propext, Quot.sound
Karta.Rings.C159_made_partial	propext, Classical.choice, Quot.sound
Karta.Rings.C159_crossings_partial	propext, Classical.choice, Quot.sound
Karta.Rings.C159_part_rings	propext
Karta.Rings.C159_part_arrays	propext, Quot.sound
Karta.Rings.C159_violated_to_polygon	propext, Classical.choice, Quot.sound
Karta.Rings.C159_violated_parts	propext, Classical.choice, Quot.sound
Karta.Rings.C159_violated_crossings	propext, Classical.choice, Quot.sound
Karta.Rings.C159_violated_touching	propext, Classical.choice, Quot.sound
Karta.Rings.C159_violated_within	propext, Classical.choice, Quot.sound
Karta.Systems.C160_contains_partial	propext, Quot.sound
Karta.Systems.C160_read_partial	propext, Quot.sound
Karta.Systems.C160_violated_contains	propext
Karta.Systems.C160_violated_area	propext, Classical.choice, Quot.sound
Karta.CrossSys.C161_intersects_partial	propext, Classical.choice, Quot.sound
Karta.CrossSys.C161_apart	propext, Classical.choice, Quot.sound
Karta.CrossSys.C161_radius_plain	propext, Classical.choice, Quot.sound
Karta.CrossSys.C161_radius_partial	propext, Classical.choice, Quot.sound
Karta.CrossSys.C161_box	propext, Classical.choice, Quot.sound
Karta.CrossSys.C161_polygon_plain	propext, Classical.choice, Quot.sound
Karta.CrossSys.C161_polygon_partial	propext, Classical.choice, Quot.sound
Karta.CrossSys.C161_violated_radius	propext, Classical.choice, Quot.sound
Karta.CrossSys.C161_violated_missed	propext, Classical.choice, Quot.sound
Karta.CrossSys.C161_violated_spurious	propext, Classical.choice, Quot.sound
Karta.CrossSys.C161_violated_order	propext, Classical.choice, Quot.sound
Karta.CrossSys.C161_violated_intersections	propext, Classical.choice, Quot.sound
Karta.CrossSys.C161_violated_incomparable	propext, Classical.choice, Quot.sound
Karta.CrossSys.C161_violated_polygon	propext, Classical.choice, Quot.sound
Karta.Nest.C162_taken_partial	propext, Classical.choice, Quot.sound
Karta.Nest.C162_shown_partial	propext, Classical.choice, Quot.sound
Karta.Nest.C162_again_partial	propext, Classical.choice, Quot.sound
Karta.Nest.C162_violated_empty	propext, Classical.choice, Quot.sound
Karta.Nest.C162_bare	propext
Karta.CrsText.C163_wkt_partial	propext, Classical.choice, Quot.sound
Karta.CrsText.C163_proj4_own	
Karta.CrsText.C163_wkt_own	
Karta.CrsText.C163_proj4_of_wkt	
Karta.CrsText.C163_neither	
Karta.CrsText.C163_raster_partial	propext, Classical.choice, Quot.sound
Karta.CrsText.C163_geographical	propext, Classical.choice, Quot.sound
Karta.CrsText.C163_violated_latlong	propext, Classical.choice, Quot.sound
Karta.CrsText.C163_violated_raster	propext, Classical.choice, Quot.sound
Karta.Grid.C164_single_partial	propext, Classical.choice, Quot.sound
Karta.Grid.C164_pointwise_partial	propext, Classical.choice, Quot.sound
Karta.Grid.C164_violated_bands	propext, Classical.choice, Quot.sound
Karta.Grid.C164_untouched	propext, Quot.sound
Karta.Grid.C164_violated_halfway	propext, Quot.sound
Karta.BandShare.C165_values_partial	propext, Classical.choice, Quot.sound
Karta.BandShare.C165_frame	propext, Quot.sound
Karta.BandShare.C165_violated_shared	propext
Karta.BandShare.C165_violated_file	propext, Quot.sound
Karta.BandShare.C165_new	propext, Classical.choice, Quot.sound
Karta.BandShare.C165_copy_sharing	propext, Classical.choice, Quot.sound
Karta.CopySys.C166_point_partial	propext
Karta.CopySys.C166_coords_partial	propext, Quot.sound
Karta.CopySys.C166_positions_partial	propext, Quot.sound
Karta.CopySys.C166_violated_cartesian	propext
Karta.CopySys.C166_clip	
Karta.ExtIn.C167_centers_partial	propext, Classical.choice, Quot.sound
Karta.ExtIn.C167_edges_partial	propext, Classical.choice, Quot.sound
Karta.ExtIn.C167_tight_partial	propext, Classical.choice, Quot.sound
Karta.ExtIn.C167_clip_partial	propext, Classical.choice, Quot.sound
Karta.ExtIn.C167_violated_bend	propext, Classical.choice, Quot.sound
Karta.ExtIn.C167_violated_clip	propext, Classical.choice, Quot.sound
Karta.Float.C168_error	propext, Classical.choice, Quot.sound
Karta.Float.C168_between	propext, Classical.choice, Quot.sound
Karta.Float.C168_outside	propext, Classical.choice, Quot.sound
Karta.Float.C168_integers_partial	propext, Classical.choice, Quot.sound
Karta.Float.C168_off_by_one	propext, Classical.choice, Quot.sound
Karta.Float.C168_exact	propext, Classical.choice, Quot.sound
Karta.Float.C168_exact_integers	propext, Classical.choice, Quot.sound
Karta.Float.C168_centre	propext, Classical.choice, Quot.sound
Karta.Float.C168_violated_constant	propext, Classical.choice, Quot.sound
Karta.Float.C168_violated_point	propext, Classical.choice, Quot.sound
Karta.Float.C168_violated_below	propext, Classical.choice, Quot.sound
Karta.Float.C169_distance	propext, Classical.choice, Quot.sound
Karta.Float.C169_zero	propext, Classical.choice, Quot.sound
Karta.Float.C169_symmetric	propext, Classical.choice, Quot.sound
Karta.Float.C169_length	propext, Classical.choice, Quot.sound
Karta.Float.C169_cumulength	propext, Classical.choice, Quot.sound
Karta.Float.C169_extend	propext, Classical.choice, Quot.sound
Karta.Float.C169_nearest	propext, Classical.choice, Quot.sound
Karta.Float.C169_exact	propext, Classical.choice, Quot.sound
Karta.Float.C169_violated_reverse	propext, Classical.choice, Quot.sound
Karta.Float.C169_violated_detour	propext, Classical.choice, Quot.sound
Karta.Typed.C170_write	propext, Classical.choice, Quot.sound
Karta.Typed.C170_nodata_partial	propext, Classical.choice, Quot.sound
Karta.Typed.C170_violated_nodata	propext, Classical.choice, Quot.sound
Karta.Typed.C170_sum	propext, Classical.choice, Quot.sound
Karta.Typed.C170_violated_overflow	propext, Classical.choice, Quot.sound
Karta.Typed.C170_sub_add	propext, Classical.choice, Quot.sound
Karta.Typed.C170_violated_missing	propext, Classical.choice, Quot.sound
Karta.Typed.C170_resize_partial	propext, Classical.choice, Quot.sound
Karta.Typed.C170_violated_resize	propext, Classical.choice, Quot.sound
Karta.AlongEnds.C171_to_points	propext, Classical.choice, Quot.sound
Karta.AlongEnds.C171_violated_spacing	propext, Classical.choice, Quot.sound
Karta.AlongEnds.C171_to_npoints	propext, Classical.choice, Quot.sound
Karta.AlongEnds.C171_violated_npoints	propext, Classical.choice, Quot.sound
Karta.FloatAffine.C172_error	propext, Classical.choice, Quot.sound
Karta.FloatAffine.C172_identity	propext, Classical.choice, Quot.sound
Karta.FloatAffine.C172_shift	propext, Classical.choice, Quot.sound
Karta.FloatAffine.C172_bbox	propext, Classical.choice, Quot.sound
Karta.FloatAffine.C172_turn	propext, Classical.choice, Quot.sound
Karta.FloatAffine.C172_back_partial	propext, Classical.choice, Quot.sound
Karta.FloatAffine.C172_violated_back	propext, Classical.choice, Quot.sound
Karta.FloatAffine.C172_violated_steps	propext, Classical.choice, Quot.sound
Karta.FloatSurface.C173_error	propext, Classical.choice, Quot.sound
Karta.FloatSurface.C173_sign_x	propext, Classical.choice, Quot.sound
Karta.FloatSurface.C173_sign_y_partial	propext, Classical.choice, Quot.sound
Karta.FloatSurface.C173_units_partial	propext, Classical.choice, Quot.sound
Karta.FloatSurface.C173_offset_partial	propext, Classical.choice, Quot.sound
Karta.FloatSurface.C173_missing	propext, Classical.choice, Quot.sound
Karta.FloatSurface.C173_violated_sign_y	propext, Classical.choice, Quot.sound
Karta.FloatSurface.C173_violated_offset	propext, Classical.choice, Quot.sound
Karta.FloatNearest.C174_answers	propext, Classical.choice, Quot.sound
Karta.FloatNearest.C174_wide	propext, Classical.choice, Quot.sound
Karta.FloatNearest.C174_narrow	propext, Classical.choice, Quot.sound
Karta.FloatNearest.C174_axis	propext, Classical.choice, Quot.sound
Karta.FloatNearest.C174_line	propext, Classical.choice, Quot.sound
Karta.FloatNearest.C174_shortest	propext, Classical.choice, Quot.sound
Karta.FloatNearest.C174_vertex	propext, Classical.choice, Quot.sound
Karta.FloatNearest.C174_violated_end	propext, Classical.choice, Quot.sound
Karta.FloatNearest.C174_violated_short	propext, Classical.choice, Quot.sound
Karta.Geod.AreaSeries.C175_side_partial	propext, Classical.choice, Quot.sound
Karta.Geod.AreaSeries.C175_geodesic	propext, Classical.choice, Quot.sound
Karta.Geod.AreaSeries.C175_series_partial	propext, Classical.choice, Quot.sound
Karta.Geod.AreaSeries.C175_quotient	propext, Classical.choice, Quot.sound
Karta.Geod.AreaSeries.C175_violated_coefficient	propext, Classical.choice, Quot.sound
Karta.Geod.AreaSeries.C175_area_partial	propext, Classical.choice, Quot.sound
Karta.Geod.ForwardSeries.C176_forward	propext, Classical.choice, Quot.sound
Karta.Geod.ForwardSeries.C176_geodesic	propext, Classical.choice, Quot.sound
Karta.Geod.ForwardSeries.C176_earth	propext, Classical.choice, Quot.sound
Karta.Geod.InverseSeries.C177_inverse	propext, Classical.choice, Quot.sound
Karta.Geod.InverseSeries.C177_meridian	propext, Classical.choice, Quot.sound
Karta.Geod.InverseSeries.C177_earth	propext, Classical.choice, Quot.sound
Karta.Geod.InverseSeries.C177_opposite	propext, Classical.choice, Quot.sound
Karta.Geod.InverseSeries.C177_first	propext, Classical.choice, Quot.sound
Karta.Crossings.C178_side	propext, Classical.choice, Quot.sound
Karta.Crossings.C178_ring_partial	propext, Classical.choice, Quot.sound
Karta.Crossings.C178_line_partial	propext, Classical.choice, Quot.sound
Karta.Crossings.C178_ring_closing_partial	propext, Classical.choice, Quot.sound
Karta.Crossings.C178_direction	propext, Classical.choice, Quot.sound
Karta.Crossings.C178_violated_line	propext, Classical.choice, Quot.sound
Karta.Crossings.C178_violated_ring	propext, Classical.choice, Quot.sound
Karta.Crossings.C178_inside_partial	propext, Classical.choice, Quot.sound
Karta.Crossings.C178_contains_partial	propext, Classical.choice, Quot.sound
Karta.Geod.SphAz.C179_reaches	propext, Classical.choice, Quot.sound
Karta.Geod.SphAz.C179_only	propext, Classical.choice, Quot.sound
Karta.Geod.SphAz.C179_compiled	propext, Classical.choice, Quot.sound
Karta.Geod.SphAz.C179_sequences	propext, Classical.choice, Quot.sound
Karta.Geod.SphAz.C179_violated_mixed	propext, Classical.choice, Quot.sound
Karta.Float.HullF.C180_encloses_partial	propext, Classical.choice, Quot.sound
Karta.Float.HullF.C180_vertices	propext, Classical.choice, Quot.sound
Karta.Float.HullF.C180_violated_lost_vertex	propext, Classical.choice, Quot.sound
Karta.Float.SphereF.C181_error	propext, Classical.choice, Quot.sound
Karta.Float.SphereF.C181_near	propext, Classical.choice, Quot.sound
Karta.Float.SphereF.C181_defined_partial	propext, Classical.choice, Quot.sound
Karta.Float.SphereF.C181_violated_raises	propext, Classical.choice, Quot.sound
Karta.FlatDist.C182_flat	propext, Classical.choice, Quot.sound
Karta.FlatDist.C182_other_rank	propext, Classical.choice, Quot.sound
Karta.FlatDist.C182_other_rank_ground	propext, Classical.choice, Quot.sound
Karta.FlatDist.C182_agree	propext, Classical.choice, Quot.sound
Karta.FlatDist.C182_violated_other_system	propext, Classical.choice, Quot.sound
Karta.Float.TileRow.C183_near	propext, Classical.choice, Quot.sound
Karta.Float.TileRow.C183_inside_partial	propext, Classical.choice, Quot.sound
Karta.Float.TileRow.C183_order	propext, Classical.choice, Quot.sound
Karta.Float.TileRow.C183_south_pole	propext, Classical.choice, Quot.sound
Karta.Float.TileRow.C183_violated_border	propext, Classical.choice, Quot.sound
Karta.Float.TileCorner.C184_accuracy	propext, Classical.choice, Quot.sound
Karta.Float.TileCorner.C184_order	propext, Classical.choice, Quot.sound
Karta.Float.TileCorner.C184_lookup_partial	propext, Classical.choice, Quot.sound
Karta.Float.TileCorner.C184_equator	propext, Classical.choice, Quot.sound
Karta.Float.TileCorner.C184_violated_lookup	propext, Classical.choice, Quot.sound
Karta.Vec.ShapeName.C185_read_what_was_saved	propext, Quot.sound
Karta.Vec.ShapeName.C185_extension_optional	propext, Quot.sound
Karta.Vec.ShapeName.C185_other_files_untouched	propext, Quot.sound
Karta.Vec.ShapeName.C185_write_with_extension_partial	propext, Quot.sound
Karta.Vec.ShapeName.C185_violated_plain_name	propext, Classical.choice, Quot.sound
Karta.Band.Props.C186_one_band_partial	propext, Classical.choice, Quot.sound
Karta.Band.Props.C186_violated_several_bands	propext, Classical.choice, Quot.sound
Karta.Band.Props.C186_iteration_agrees	propext, Classical.choice, Quot.sound
Karta.Band.Props.C186_array_of_all	propext, Classical.choice, Quot.sound
Karta.Band.Props.C186_no_bands	
