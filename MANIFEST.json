{
 "claims": [
  {
   "property": "C01",
   "status": "proved",
   "theorems": [
    "Karta.Band.Props.C01_compressed_band_is_last_write_wins"
   ],
   "note": ""
  },
  {
   "property": "C02",
   "status": "proved",
   "theorems": [
    "Karta.Band.Props.C02_chunk_size_unobservable"
   ],
   "note": ""
  },
  {
   "property": "C03",
   "status": "proved",
   "theorems": [
    "Karta.Band.Props.C03_simple_and_compressed_agree"
   ],
   "note": ""
  },
  {
   "property": "C04",
   "status": "partial",
   "theorems": [
    "Karta.Band.Props.C04_violated_silent_corruption",
    "Karta.Band.Props.C04_violated_negative_offset",
    "Karta.Band.Props.C04_overflowing_write_frame_partial"
   ],
   "note": "False in general: C04_violated_* are kernel-checked counterexamples. The partial theorem covers every block whose first row and column are non-negative and whose first column is at most the band width."
  },
  {
   "property": "C05",
   "status": "partial",
   "theorems": [
    "Karta.Band.Props.C05_sliced_read_partial",
    "Karta.Band.Props.C05_violated_inverted_slice",
    "Karta.Band.Props.C05_violated_integer_out_of_range",
    "Karta.Band.Props.C05_integer_row_key_modulo"
   ],
   "note": "Holds for every key Python accepts except slices running against their step, which the code refuses with ValueError instead of returning an empty selection; out-of-range integers wrap modulo the height instead of raising."
  },
  {
   "property": "C06",
   "status": "proved",
   "theorems": [
    "Karta.Band.Props.C06_sliced_write",
    "Karta.Band.Props.C06_bad_shape_changes_nothing",
    "Karta.Band.Props.C06_stepped_refused",
    "Karta.Band.Props.C06_inverted_refused",
    "Karta.Band.Props.C06_integer_row_key_modulo"
   ],
   "note": ""
  },
  {
   "property": "C07",
   "status": "partial",
   "theorems": [
    "Karta.Band.Props.C07_mask_write",
    "Karta.Band.Props.C07_mask_read",
    "Karta.Band.Props.C07_mask_round_trip",
    "Karta.Band.Props.C07_violated_three_d_round_trip",
    "Karta.Band.Props.C07_three_d_mask_read_partial"
   ],
   "note": "2-D masks are fully covered. 3-D masks: writes covered; the read-then-write round trip is false for two or more bands."
  },
  {
   "property": "C08",
   "status": "proved",
   "theorems": [
    "Karta.Band.Props.C08_iteration_yields_rows"
   ],
   "note": ""
  },
  {
   "property": "C09",
   "status": "proved",
   "theorems": [
    "Karta.Grid.C09_center_round_trip",
    "Karta.Grid.C09_position_round_trip",
    "Karta.Grid.C09_coordinate_generator_agrees",
    "Karta.Grid.C09_quarter_turn_undefined"
   ],
   "note": ""
  },
  {
   "property": "C10",
   "status": "proved",
   "theorems": [
    "Karta.Grid.C10_point_in_cell",
    "Karta.Grid.C10_returned_cell_contains",
    "Karta.Grid.C10_outside_raises",
    "Karta.Grid.C10_vector_agrees",
    "Karta.Grid.C10_border_depends_on_parity"
   ],
   "note": ""
  },
  {
   "property": "C11",
   "status": "partial",
   "theorems": [
    "Karta.Grid.C11_tiling",
    "Karta.Grid.C11_default_size",
    "Karta.Grid.C11_violated_default_on_small_grids"
   ],
   "note": "Proved for every window size larger than the overlap; the default window size on grids with fewer than four rows or columns never terminates (proved for every such grid)."
  },
  {
   "property": "C12",
   "status": "proved",
   "theorems": [
    "Karta.Grid.C12_clip"
   ],
   "note": ""
  },
  {
   "property": "C13",
   "status": "partial",
   "theorems": [
    "Karta.Grid.C13_violated_skew",
    "Karta.Grid.C13_resize_partial",
    "Karta.Grid.C13_violated_negative_row_spacing"
   ],
   "note": "Proved for positive spacing without skew; for negative row spacing every resize to the grid's own box raises (proved); on skewed grids values are moved to other places (C13_violated_skew)."
  },
  {
   "property": "C14",
   "status": "partial",
   "theorems": [
    "Karta.Grid.C14_merge_partial",
    "Karta.Grid.C14_default_weights",
    "Karta.Grid.C14_weights_scale",
    "Karta.Grid.C14_order",
    "Karta.Grid.C14_single",
    "Karta.Grid.C14_violated_band_masks",
    "Karta.Grid.C14_violated_negative_spacing",
    "Karta.Grid.C14_violated_skew"
   ],
   "note": "Proved for positive spacing without skew, for data holding in all bands. Violated for negative spacing (raises), for several bands (a pixel missing in one band is lost in all) and for skewed grids, whose cells are combined with others (C14_violated_skew)."
  },
  {
   "property": "C15",
   "status": "partial",
   "theorems": [
    "Karta.Grid.C15_gridpoints_partial",
    "Karta.Grid.C15_conservation",
    "Karta.Grid.C15_violated_negative_spacing",
    "Karta.Grid.C15_before_origin",
    "Karta.Grid.C15_violated_skew"
   ],
   "note": "Proved for positive spacing without skew: points on or after the origin are all counted in their cell, and when any point lies before the origin the gridder raises an exception instead of dropping or misplacing it (C15_before_origin). Violated for negative spacing and for skewed grids (raises)."
  },
  {
   "property": "C16",
   "status": "partial",
   "theorems": [
    "Karta.Grid.C16_bilinear_partial",
    "Karta.Grid.C16_bilinear_unsigned_partial",
    "Karta.Grid.C16_bilinear_signed_partial",
    "Karta.Grid.C16_centre_value",
    "Karta.Grid.C16_between",
    "Karta.Grid.C16_affine_surface",
    "Karta.Grid.C16_violated_first_row",
    "Karta.Grid.C16_violated_signed_outside"
   ],
   "note": "Bilinear sampling is proved equal to the interpolation formula wherever all samples are readable; violated when all sample points lie on the first row or column of centres (raises) and for signed integer grids outside the centres (wraps round)."
  },
  {
   "property": "C17",
   "status": "partial",
   "theorems": [
    "Karta.Grid.C17_scalar",
    "Karta.Grid.C17_vector_partial",
    "Karta.Grid.C17_violated_multiband",
    "Karta.Grid.C17_violated_all_outside"
   ],
   "note": "Scalar lookups are proved outright; vectors are proved for single-band grids with some point inside. Violated for several bands (values are scrambled) and when all points lie outside (raises)."
  },
  {
   "property": "C18",
   "status": "proved",
   "theorems": [
    "Karta.Grid.C18_set_nodata"
   ],
   "note": ""
  },
  {
   "property": "C19",
   "status": "partial",
   "theorems": [
    "Karta.Grid.C19_center_extent_partial",
    "Karta.Grid.C19_edge_extent_partial",
    "Karta.Grid.C19_violated_opposite_skew"
   ],
   "note": "The extent is exact for transforms whose skew terms are zero or of the same sign as the spacing; for opposite signs the code returns a box that misses part of the grid (witness)."
  },
  {
   "property": "C20",
   "status": "partial",
   "theorems": [
    "Karta.Grid.C20_start_vertex",
    "Karta.Grid.C20_reversal_partial",
    "Karta.Grid.C20_outside_rows",
    "Karta.Grid.C20_outside_columns_partial",
    "Karta.Grid.C20_violated_oblong_cells",
    "Karta.Grid.C20_violated_slanted_rows"
   ],
   "note": "Start vertex: proved for all transforms. Reversal: proved unless a side is horizontal and the grid's rows are slanted (then one direction raises). Rows outside: proved for positive spacing without skew; columns outside: proved for square cells, violated for oblong cells, where the crossing column is computed in map units."
  },
  {
   "property": "C21",
   "status": "partial",
   "theorems": [
    "Karta.Grid.C21_reads_esri_files_partial",
    "Karta.Grid.C21_violated_unreadable"
   ],
   "note": "The reader is proved correct for every well-formed file. The writer is shown to be broken for every grid: self[:,:] keeps a band axis, each pixel is printed as '[v]', and read_aai raises ValueError on the file. Even without the brackets the writer emits the bottom row first while the reader expects the top row first."
  },
  {
   "property": "C22",
   "status": "partial",
   "theorems": [
    "Karta.Grid.C22_geotiff_round_trip_partial",
    "Karta.Grid.C22_violated_skew",
    "Karta.Grid.C22_violated_single_row"
   ],
   "note": "Proved for unskewed grids of at least two rows and columns, pixels and nodata included. Violated for every skewed grid (read_geotiff negates the skews and displaces the corner) and for single-row or single-column grids (squeeze drops an axis; the file cannot be read into memory)."
  },
  {
   "property": "C23",
   "status": "partial",
   "theorems": [
    "Karta.Grid.C23_file_band_agrees_partial",
    "Karta.Grid.C23_file_band_pixels",
    "Karta.Grid.C23_violated_single_row"
   ],
   "note": "Proved for every window of files with at least two rows and columns; in-memory reading raises for single-row or single-column files."
  },
  {
   "property": "C24",
   "status": "proved",
   "theorems": [
    "Karta.Vec.QT.C24_search_exact",
    "Karta.Vec.QT.C24_search_total"
   ],
   "note": "Exact arithmetic; NaN coordinates not modelled."
  },
  {
   "property": "C25",
   "status": "proved",
   "theorems": [
    "Karta.Vec.QT.C25_build_terminates",
    "Karta.Vec.QT.C25_capacity_one_diverges"
   ],
   "note": "Termination stated through fuel: from some fuel on the result exists and no longer changes. Capacity one provably diverges (C25_capacity_one_diverges)."
  },
  {
   "property": "C26",
   "status": "partial",
   "theorems": [
    "Karta.RTree.C26_sound_partial",
    "Karta.RTree.C26_small_partial",
    "Karta.RTree.C26_violated_lost_geometry",
    "Karta.RTree.C26_violated_stale_box",
    "Karta.RTree.C26_violated_flat",
    "Karta.RTree.C26_two_levels_partial",
    "Karta.RTree.C26_violated_stale_parent"
   ],
   "note": "Soundness is proved for every tree. Exactness is proved for indices whose geometries fit in one node, and for trees of two levels when every division of a leaf used two different seeds and boxes that contain their entries (C26_two_levels_partial). Completeness is violated otherwise: both seeds of a division can be the same item, in which case the last geometry is dropped (and the first is stored twice, so that freeing the tree frees its box twice); topping a node up to two items leaves its box stale; after the division of an inner node the moved children keep their old parent, so that later insertions extend the wrong box (C26_violated_stale_parent); flat geometries never overlap anything."
  },
  {
   "property": "C27",
   "status": "partial",
   "theorems": [
    "Karta.RTree.C27_within_sound_partial",
    "Karta.RTree.C27_small_partial",
    "Karta.RTree.C27_violated_limit",
    "Karta.RTree.C27_two_levels_partial"
   ],
   "note": "Soundness is proved for every tree, query and limit; without limit, exactness for one node and for trees of two levels built without mishap (C27_two_levels_partial). max_results is not respected: a leaf is always scanned to the end, and the overlap search never counts its results."
  },
  {
   "property": "C28",
   "status": "proved",
   "theorems": [
    "Karta.Tab.C28_setfield_getfield",
    "Karta.Tab.C28_setfield_history",
    "Karta.Tab.C28_wrong_length_refused",
    "Karta.Tab.C28_empty_table_keeps_only_new_column"
   ],
   "note": "Proved for single assignments and whole histories. On a table without rows setfield discards the other columns (C28_empty_table_keeps_only_new_column)."
  },
  {
   "property": "C29",
   "status": "proved",
   "theorems": [
    "Karta.Tab.C29_extend_appends_rows",
    "Karta.Tab.C29_merge_is_inner_join",
    "Karta.Tab.C29_merge_of_nothing"
   ],
   "note": ""
  },
  {
   "property": "C30",
   "status": "partial",
   "theorems": [
    "Karta.Tab.C30_updated_with_table_partial",
    "Karta.Tab.C30_updated_with_dict_partial",
    "Karta.Tab.C30_unequal_length_refused",
    "Karta.Tab.C30_violated_empty_table"
   ],
   "note": "True for tables with rows; false for tables without rows, where fields are lost. The receiver is a value in the model, so that it is unchanged holds by construction."
  },
  {
   "property": "C31",
   "status": "partial",
   "theorems": [
    "Karta.Tab.C31_subset_partial",
    "Karta.Tab.C31_subset_single_field_partial",
    "Karta.Tab.C31_violated_two_fields"
   ],
   "note": "_subset passes a set as the field list: with two or more attributes the columns can be permuted (violated). Proved for iteration order equal to column order, and outright for at most one attribute."
  },
  {
   "property": "C32",
   "status": "proved",
   "theorems": [
    "Karta.Vec.C32_bbox_tight",
    "Karta.Vec.C32_bbox_empty",
    "Karta.Vec.C32_multipart_bbox_tight"
   ],
   "note": "Bounding boxes of vertex lists and of multipart geometries are the tightest boxes."
  },
  {
   "property": "C33",
   "status": "proved",
   "theorems": [
    "Karta.Vec.C33_bboxes_overlap_exact",
    "Karta.Vec.C33_method_agrees",
    "Karta.Vec.C33_bbox_wf"
   ],
   "note": "Overlap test of bounding boxes equals positive-area overlap; 32-bit float underflow of the width is not modelled."
  },
  {
   "property": "C34",
   "status": "proved",
   "theorems": [
    "Karta.Vec.C34_intersection_exact",
    "Karta.Vec.C34_intersection_sound"
   ],
   "note": "Segment intersection: a point is returned exactly for non-parallel segments that meet, and it is the common point."
  },
  {
   "property": "C35",
   "status": "proved",
   "theorems": [
    "Karta.Vec.C35_all_intersections_exact",
    "Karta.Vec.C35_every_crossing_listed",
    "Karta.Vec.C35_symmetric"
   ],
   "note": "all_intersections lists exactly the pairwise crossings; symmetric up to order."
  },
  {
   "property": "C36",
   "status": "partial",
   "theorems": [
    "Karta.Vec.Sweep.C36_sound_partial",
    "Karta.Vec.Sweep.C36_vertical_partial",
    "Karta.Vec.Sweep.C36_first_contact_partial",
    "Karta.Vec.Sweep.C36_exact_partial",
    "Karta.Vec.Sweep.C36_method_partial",
    "Karta.Vec.Sweep.C36_violated_self_crossing",
    "Karta.Vec.Sweep.C36_violated_touch",
    "Karta.Vec.Sweep.C36_violated_vertical_overlap",
    "Karta.Vec.Sweep.C36_violated_retrace"
   ],
   "note": "Proved: no false alarms and termination when no non-vertical segment is drawn twice; exact answer when no geometry crosses itself and the two do not meet in vertices, also for the method that compares bounding boxes first; what lies to the right of the first contact makes no difference (C36_first_contact_partial); vertical segments always noticed. Missing: geometries that cross themselves to the left of the first contact, where a proper crossing can be missed (C36_violated_self_crossing). False: lines that touch end to end from opposite sides are never found to intersect although the brute-force search reports the point (C36_violated_touch); overlapping vertical lines are missed; a retraced segment makes the loop endless."
  },
  {
   "property": "C37",
   "status": "partial",
   "theorems": [
    "Karta.Vec.C37_southeast_exact_partial",
    "Karta.Vec.C37_northwest_exact_partial",
    "Karta.Vec.C37_violated_southwest",
    "Karta.Vec.C37_violated_same_height",
    "Karta.Vec.C37_violated_opposite",
    "Karta.Vec.C37_violated_horizontal",
    "Karta.Vec.C37_violated_descending",
    "Karta.Vec.C37_ascending_exact_partial",
    "Karta.Vec.C37_vertical_exact_partial",
    "Karta.Vec.C37_true_on_common_line"
   ],
   "note": "Exact for two segments drawn to the upper right, lower right or upper left, and upwards along a vertical (the _partial theorems). Violated for all others that are drawn alike: always False for two segments drawn to the lower left (C37_violated_southwest), always True for horizontal segments at one height (C37_violated_same_height); and False for a segment inside a second one drawn the opposite way (C37_violated_opposite)."
  },
  {
   "property": "C38",
   "status": "proved",
   "theorems": [
    "Karta.Vec.C38_invariance",
    "Karta.Vec.C38_separated_not_contained",
    "Karta.Vec.C38_outside_bbox",
    "Karta.Vec.C38_left_of_all_edges",
    "Karta.Vec.C38_convex",
    "Karta.Vec.C38_convex_clockwise"
   ],
   "note": "Invariance under rotation of the vertex list, duplicates, affine maps of positive determinant, exclusion outside the bounding box, exactness for convex rings."
  },
  {
   "property": "C39",
   "status": "proved",
   "theorems": [
    "Karta.Vec.C39_holes_excluded",
    "Karta.Vec.C39_area_minus_holes"
   ],
   "note": "Containment and area with nested holes."
  },
  {
   "property": "C40",
   "status": "proved",
   "theorems": [
    "Karta.Vec.C40_area_invariance",
    "Karta.Vec.C40_area_affine_with_holes",
    "Karta.Vec.C40_triangle",
    "Karta.Vec.C40_empty"
   ],
   "note": "Area invariances, affine scaling, triangle formula."
  },
  {
   "property": "C41",
   "status": "proved",
   "theorems": [
    "Karta.Vec.C41_isclockwise_iff",
    "Karta.Vec.C41_invariance"
   ],
   "note": "isclockwise is the sign of the area sum; the reversal flips it."
  },
  {
   "property": "C42",
   "status": "proved",
   "theorems": [
    "Karta.Vec.C42_affine_equivariant",
    "Karta.Vec.C42_invariance",
    "Karta.Vec.C42_defined",
    "Karta.Vec.C42_triangle",
    "Karta.Vec.C42_cut"
   ],
   "note": "Centroid is affine equivariant, independent of starting vertex and orientation, defined iff the signed area is nonzero, area-weighted mean under cuts."
  },
  {
   "property": "C43",
   "status": "partial",
   "theorems": [
    "Karta.Tr.C43_acts_per_vertex",
    "Karta.Tr.C43_planar_matrix_keeps_z",
    "Karta.Tr.C43_spatial_acts_per_vertex",
    "Karta.Tr.C43_refused",
    "Karta.Tr.C43_compose",
    "Karta.Tr.C43_violated_spatial_on_planar",
    "Karta.Tr.C43_shift",
    "Karta.Tr.C43_shift_refused",
    "Karta.Tr.C43_rotate_acts",
    "Karta.Tr.C43_rotation_rigid",
    "Karta.Tr.C43_point_agrees",
    "Karta.Tr.C43_point_shift",
    "Karta.Tr.C43_multipart"
   ],
   "note": "Per-vertex action, composition, rigidity of rotation, refused matrix shapes. Violated: three-row matrices on planar geometries do not compose."
  },
  {
   "property": "C44",
   "status": "partial",
   "theorems": [
    "Karta.Vec.C44_nearest_on_segment_partial",
    "Karta.Vec.C44_violated_short_horizontal",
    "Karta.Vec.C44_zero_length"
   ],
   "note": "Violated for horizontal segments shorter than 0.0001; partial for all other segments of positive length. Squared distances."
  },
  {
   "property": "C45",
   "status": "partial",
   "theorems": [
    "Karta.Vec.C45_line_distance_partial",
    "Karta.Vec.C45_violated_closing_segment",
    "Karta.Vec.C45_violated_within_distance",
    "Karta.Vec.C45_within_distance_partial"
   ],
   "note": "Violated: a polygon's closing segment is left out; within_distance requires all segments to be near. Partial: exact for lines."
  },
  {
   "property": "C46",
   "status": "partial",
   "theorems": [
    "Karta.Vec.Hull.C46_encloses_partial",
    "Karta.Vec.Hull.C46_all_but_first_ray_partial",
    "Karta.Vec.Hull.C46_vertices_partial",
    "Karta.Vec.Hull.C46_violated_lost_vertex",
    "Karta.Vec.Hull.C46_violated_collinear",
    "Karta.Vec.Hull.C46_violated_raises"
   ],
   "note": "Proved: for vertices not all on one line through the leftmost one, the polygon turns left throughout and encloses every vertex, provided the lowest ray from the leftmost vertex carries one position; without that proviso every vertex off that ray is enclosed; returned vertices are always input vertices starting with the leftmost. Missing: a nearer vertex on the lowest ray can replace a farther one (violated), collinear input, IndexError on repeated leftmost vertices and on a single vertex. Spherical coordinates are the subject of C139, rounding that of C180."
  },
  {
   "property": "C47",
   "status": "partial",
   "theorems": [
    "Karta.Cache.C47_recomputed_partial",
    "Karta.Cache.C47_queries",
    "Karta.Cache.C47_violated_assignment",
    "Karta.Cache.C47_violated_extend"
   ],
   "note": "Proved for every history of bbox, extent, length and extend calls with any arguments (C47_recomputed_partial, C47_queries). False after Multipoint.__setitem__, which leaves the cache in place (C47_violated_assignment); after Line.extend the attributes cannot be computed at all (C47_violated_extend)."
  },
  {
   "property": "C48",
   "status": "proved",
   "theorems": [
    "Karta.Geod.C48_reduce",
    "Karta.Geod.C48_unroll"
   ],
   "note": "Angles in degrees over rational numbers; the radian versions are the same expressions with another period."
  },
  {
   "property": "C49",
   "status": "proved",
   "theorems": [
    "Karta.Geod.C49_canonical"
   ],
   "note": "Canonicalisation and its inverse as used by the geodesic solver, over rational numbers."
  },
  {
   "property": "C50",
   "status": "proved",
   "theorems": [
    "Karta.Geod.C50_antisymmetric",
    "Karta.Geod.C50_meaning",
    "Karta.Geod.C50_method"
   ],
   "note": "crosses_dateline on longitudes in [-180, 180) and the Line/Polygon method built on it."
  },
  {
   "property": "C51",
   "status": "proved",
   "theorems": [
    "Karta.Tile.C51_tile",
    "Karta.Tile.C51_range",
    "Karta.Tile.C51_children"
   ],
   "note": "Tile indices over real numbers, with the logarithm and tangent of Mathlib; floor of exact values, no rounding."
  },
  {
   "property": "C52",
   "status": "proved",
   "theorems": [
    "Karta.Geod.Brent.C52_answer",
    "Karta.Geod.Brent.C52_errors",
    "Karta.Geod.Brent.C52_root_at_end"
   ],
   "note": "For every rational function and interval, with exact arithmetic: an answer lies in the interval and is a root or within tol of a change of sign; ValueError exactly when the ends have the same strict sign; no division by zero."
  },
  {
   "property": "C53",
   "status": "proved",
   "theorems": [
    "Karta.Surface.C53_plane",
    "Karta.Surface.C53_linear",
    "Karta.Surface.C53_offset",
    "Karta.Surface.C53_divergence_plane",
    "Karta.Surface.C53_divergence_offset",
    "Karta.Surface.C53_divergence_linear",
    "Karta.Surface.C53_slope_interior",
    "Karta.Surface.C53_slope_plane"
   ],
   "note": "Gradient and divergence over any field, slope over the reals; transforms without skew and with non-zero cell sizes of either sign; float32 rounding is not modelled."
  },
  {
   "property": "C54",
   "status": "partial",
   "theorems": [
    "Karta.Shape.C54_terminates",
    "Karta.Shape.C54_distinct",
    "Karta.Shape.C54_length_partial",
    "Karta.Shape.C54_id_partial",
    "Karta.Shape.C54_violated_id",
    "Karta.Shape.C54_violated_long"
   ],
   "note": "Distinctness and termination of the renaming are proved for all attribute names and any upper-casing function; length <= 10 when no character grows in upper case. Violated: an attribute called id gives a column ID beside the reserved id; names with characters such as the sharp s exceed ten characters."
  },
  {
   "property": "C55",
   "status": "proved",
   "theorems": [
    "Karta.Tab.C55_properties_partitioned",
    "Karta.Tab.C55_each_property_in_exactly_one"
   ],
   "note": "len(v) is the only thing the code looks at: a string with n characters counts as per-part data (see C57)."
  },
  {
   "property": "C56",
   "status": "proved",
   "theorems": [
    "Karta.Tab.C56_parts_inner_join"
   ],
   "note": ""
  },
  {
   "property": "C57",
   "status": "partial",
   "theorems": [
    "Karta.Tab.C57_without_data",
    "Karta.Tab.C57_one_row_per_part_partial",
    "Karta.Tab.C57_wrong_length_refused",
    "Karta.Tab.C57_violated_parts_without_common_keys",
    "Karta.Tab.C57_violated_string_property",
    "Karta.Tab.C57_violated_table_argument"
   ],
   "note": "Proved for no data and for dictionaries of sequences; violated for parts without common property keys (no rows at all), for string values with n characters, and for Table arguments of another length."
  },
  {
   "property": "C58",
   "status": "partial",
   "theorems": [
    "Karta.Tab.C58_part_attributes_partial",
    "Karta.Tab.C58_violated_assigned_point",
    "Karta.Tab.C58_assigned_point_partial"
   ],
   "note": "Reading is proved. Assigning is right only when the set of field names is iterated in column order; violated otherwise."
  },
  {
   "property": "C59",
   "status": "proved",
   "theorems": [
    "Karta.Tab.C59_slice_keeps_attributes"
   ],
   "note": ""
  },
  {
   "property": "C60",
   "status": "proved",
   "theorems": [
    "Karta.Vec.QT.C60_within_bbox_agrees",
    "Karta.Vec.QT.C60_within_radius_agrees"
   ],
   "note": ""
  },
  {
   "property": "C61",
   "status": "proved",
   "theorems": [
    "Karta.Vec.C61_cut"
   ],
   "note": "Winding counts and signed areas are additive under cutting along any path."
  },
  {
   "property": "C62",
   "status": "partial",
   "theorems": [
    "Karta.Vec.C62_just_right_partial",
    "Karta.Vec.C62_convex_partial",
    "Karta.Vec.C62_violated_upper_edge",
    "Karta.Vec.C62_rectangle_partial"
   ],
   "note": "Violated: points of the upper and right edge of a rectangle are not contained. Proved for every polygon with holes: the answer for any point, on the boundary or not, is the answer for the points just to its right (C62_just_right_partial); exact for the sides of convex polygons and for rectangles."
  },
  {
   "property": "C63",
   "status": "partial",
   "theorems": [
    "Karta.Tr.C63_violated_shift_drops_holes",
    "Karta.Tr.C63_no_holes_partial"
   ],
   "note": "Violated: holes are dropped. Partial: geometries without holes."
  },
  {
   "property": "C64",
   "status": "partial",
   "theorems": [
    "Karta.Grid.C64_vertex_coords_partial",
    "Karta.Grid.C64_violated_last_row"
   ],
   "note": "All rows but the last are proved; the last row is never written."
  },
  {
   "property": "C65",
   "status": "partial",
   "theorems": [
    "Karta.Grid.C65_clip_beyond_far_edges_partial",
    "Karta.Grid.C65_violated_box_outside_grid"
   ],
   "note": "Proved for boxes that do not reach before the first row or column. A box reaching beyond the left edge yields the right pixels with a shifted transform (witness)."
  },
  {
   "property": "C66",
   "status": "partial",
   "theorems": [
    "Karta.Grid.C66_away_partial",
    "Karta.Grid.C66_corner_polygons_partial",
    "Karta.Grid.C66_violated_slanting_side",
    "Karta.Grid.C66_keeps_or_erases",
    "Karta.Grid.C66_raises",
    "Karta.Grid.C66_rectangles_partial",
    "Karta.Grid.C66_violated_negative_spacing",
    "Karta.Grid.C66_violated_oblong_cells",
    "Karta.Grid.C66_same_box_partial"
   ],
   "note": "The keep-or-erase effect relative to the computed mask is proved for all grids and polygon lists. On grids with square cells, positive spacing and no skew, for polygons of any shape with vertices anywhere: the mask agrees with containment of the centre for every cell unless a side passes through its lower half or within half a cell below it (C66_away_partial). That the mask is the interior is also proved for rectangles (any corner, either direction) on grids with oblong cells. For vertices at corners of square cells the mask consists of the cells the middle of whose lower side is contained (C66_corner_polygons_partial); with respect to centres it is violated for slanting sides, negative row spacing (mask upside down) and oblong cells. Polygon holes are ignored by the code."
  },
  {
   "property": "C67",
   "status": "partial",
   "theorems": [
    "Karta.Grid.C67_accepts_iff_partial",
    "Karta.Grid.C67_violated_skew_accepted"
   ],
   "note": "The exact acceptance condition is proved; the chained comparison sx != sy != 0.0 lets skewed grids through, whose files lose the skew."
  },
  {
   "property": "C68",
   "status": "proved",
   "theorems": [
    "Karta.Grid.C68_geotiff_places_pixels"
   ],
   "note": "Proved in full; GDAL's storage and data type conversion are trusted."
  },
  {
   "property": "C69",
   "status": "partial",
   "theorems": [
    "Karta.Grid.C69_read_places_pixels_partial",
    "Karta.Grid.C69_band_selection",
    "Karta.Grid.C69_violated_skew"
   ],
   "note": "Proved for geotransforms without skew terms and files of at least two rows and columns; violated for every geotransform with a skew term."
  },
  {
   "property": "C70",
   "status": "partial",
   "theorems": [
    "Karta.Grid.C70_violated_transforms_not_compared",
    "Karta.Grid.C70_violated_nan_order",
    "Karta.Grid.C70_sizes_agree_partial"
   ],
   "note": "Equal sizes are enforced (proved); geotransforms are not compared at all: any two same-sized files with numeric nodata values are combined (violated for all such pairs)."
  },
  {
   "property": "C71",
   "status": "partial",
   "theorems": [
    "Karta.Grid.C71_dtype_round_trip_partial",
    "Karta.Grid.C71_violated"
   ],
   "note": "Complete case analysis over the twelve numpy types: seven survive, the others change or are refused."
  },
  {
   "property": "C72",
   "status": "partial",
   "theorems": [
    "Karta.RTree.C72_bbox_small_partial",
    "Karta.RTree.C72_violated_after_division",
    "Karta.RTree.C72_two_levels_partial"
   ],
   "note": "Proved while all geometries fit in one node, and again for trees of two levels built without mishap once more than one geometry was added after the first division; right after the first division of the root the property is the inverted placeholder box, for every input."
  },
  {
   "property": "C73",
   "status": "proved",
   "theorems": [
    "Karta.RTree.C73_total",
    "Karta.RTree.C73_capacity"
   ],
   "note": "Proved by a balance invariant kept by every insertion, including those that leave wrong parent pointers. Capacities below 4 end the process, which is the exact limit."
  },
  {
   "property": "C74",
   "status": "partial",
   "theorems": [
    "Karta.Geod.C74_exact_partial",
    "Karta.Geod.C74_one_way_partial",
    "Karta.Geod.C74_violated_back_and_forth"
   ],
   "note": "Proved: the exact condition tested by the code, and that rings that move in one direction only are recognised. Missing: a ring that crosses the dateline and comes back is reported as polar (violated)."
  },
  {
   "property": "C75",
   "status": "partial",
   "theorems": [
    "Karta.Geod.C75_between_partial",
    "Karta.Geod.C75_violated_opposite"
   ],
   "note": "Proved: for ends that are not exactly opposite the answer is membership of the shorter arc. Violated for exactly opposite ends, where the answer is always False."
  },
  {
   "property": "C76",
   "status": "partial",
   "theorems": [
    "Karta.Geod.C76_no_crossing_partial",
    "Karta.Geod.C76_last_step_partial",
    "Karta.Geod.C76_violated_after_crossing",
    "Karta.Geod.C76_violated_180"
   ],
   "note": "Proved: all vertices are covered when no step crosses the dateline, and for lines whose last step alone crosses it (C76_last_step_partial). Violated when the line goes on after a crossing and for longitude 180."
  },
  {
   "property": "C77",
   "status": "partial",
   "theorems": [
    "Karta.Geod.C77_equatorial_partial",
    "Karta.Geod.C77_violated_long_way"
   ],
   "note": "Proved when the longitudes differ by at most 180. Violated beyond, where the long way round is measured."
  },
  {
   "property": "C78",
   "status": "partial",
   "theorems": [
    "Karta.Surface.C78_gradient",
    "Karta.Surface.C78_divergence_partial",
    "Karta.Surface.C78_violated_divergence"
   ],
   "note": "Proved for gradient. For divergence only when nodata is NaN: any other nodata value is used as a number (violated)."
  },
  {
   "property": "C79",
   "status": "partial",
   "theorems": [
    "Karta.Surface.C79_size_partial",
    "Karta.Surface.C79_violated_one_row",
    "Karta.Surface.C79_slope_nonneg_partial",
    "Karta.Surface.C79_violated_negative_slope"
   ],
   "note": "Proved for grids of at least 3 x 3 (slope raises ValueError on smaller ones) and for interior slopes. Violated: the gradient of a one-row grid has two rows; border slopes are extrapolated and can be negative."
  },
  {
   "property": "C80",
   "status": "partial",
   "theorems": [
    "Karta.Surface.C80_east_west_partial",
    "Karta.Surface.C80_mirrored_partial",
    "Karta.Surface.C80_violated_north"
   ],
   "note": "Proved when the surface is level from south to north; in general the aspect is that of the mirrored surface (proved), so a surface rising north is said to face north (violated)."
  },
  {
   "property": "C81",
   "status": "partial",
   "theorems": [
    "Karta.Surface.C81_unit_partial",
    "Karta.Surface.C81_violated_lone_component"
   ],
   "note": "Proved where both components are numbers. Violated beside missing values, where one component alone can be computed."
  },
  {
   "property": "C82",
   "status": "partial",
   "theorems": [
    "Karta.Shape.C82_columns_partial",
    "Karta.Shape.C82_rows_partial",
    "Karta.Shape.C82_violated_late_value"
   ],
   "note": "Proved for attributes with a storable value among the first hundred features; violated for an attribute first set in the 101st feature, which is dropped. OGR's own behaviour is not modelled."
  },
  {
   "property": "C83",
   "status": "partial",
   "theorems": [
    "Karta.Cache.C83_plain_partial",
    "Karta.Cache.C83_fresh_partial",
    "Karta.Cache.C83_violated_indexed"
   ],
   "note": "Proved without the spatial index for every history of assignments, and with it before the first assignment. False with the index after an assignment: __setitem__ leaves the quadtree unchanged (C83_violated_indexed)."
  },
  {
   "property": "C84",
   "status": "proved",
   "theorems": [
    "Karta.Geod.C84_forward_inverse",
    "Karta.Geod.C84_inverse_forward",
    "Karta.Geod.C84_inverse_symmetric",
    "Karta.Geod.C84_compass"
   ],
   "note": "Fully proved over the reals."
  },
  {
   "property": "C85",
   "status": "partial",
   "theorems": [
    "Karta.Geod.C85_walk_there",
    "Karta.Geod.C85_azimuth_defined",
    "Karta.Geod.C85_after_walk",
    "Karta.Geod.C85_violated_meridian",
    "Karta.Geod.C85_geographic_partial"
   ],
   "note": "Planar systems: proved (C85_walk_there, C85_azimuth_defined, C85_after_walk). Geographical systems: the azimuth is NaN for points on one meridian because lat0 == lat1 is tested where != is meant (C85_violated_meridian)."
  },
  {
   "property": "C86",
   "status": "partial",
   "theorems": [
    "Karta.Geod.C86_metric_partial",
    "Karta.Geod.C86_planar",
    "Karta.Geod.C86_violated_mixed"
   ],
   "note": "Proved when all points have equally many coordinates; false when 2-D and 3-D points are mixed (C86_violated_mixed)."
  },
  {
   "property": "C87",
   "status": "proved",
   "theorems": [
    "Karta.Geod.Sphere.C87_great_circle",
    "Karta.Geod.Sphere.C87_compiled",
    "Karta.Geod.Sphere.C87_metric"
   ],
   "note": "Proved over the reals, for sphere_distance (with its switch of formulas) and for the compiled dist_sph. Rounding of sphere_distance is the subject of C181."
  },
  {
   "property": "C88",
   "status": "partial",
   "theorems": [
    "Karta.Geod.Sphere.C88_direction_partial",
    "Karta.Geod.Sphere.C88_round_trip_partial",
    "Karta.Geod.Sphere.C88_violated_south",
    "Karta.Geod.Sphere.C88_violated_pole",
    "Karta.Geod.Sphere.C88_violated_west"
   ],
   "note": "Proved on the northern side; false for every vector below the equator (latitude beyond 90), at the poles (ZeroDivisionError) and next to the meridians 90 and -90 on the far side."
  },
  {
   "property": "C89",
   "status": "partial",
   "theorems": [
    "Karta.Geod.Sphere.C89_violated_far_side",
    "Karta.Geod.Sphere.C89_on_both_partial",
    "Karta.Geod.Sphere.C89_between_partial",
    "Karta.Geod.Sphere.C89_meridian_partial",
    "Karta.Geod.Sphere.C89_violated_south"
   ],
   "note": "Soundness (on both great circles; longitude between the ends, latitude between the ends on meridian segments) proved except where the product of the two poles is within 1e-4 of the plane x = 0 on the far side. Missing because false: there the position may lie on neither the crossing nor one of the segments (C89_violated_far_side), and the latitude can be beyond 90 for southern crossings (C89_violated_south)."
  },
  {
   "property": "C90",
   "status": "partial",
   "theorems": [
    "Karta.Geod.Sphere.C90_violated_far_side",
    "Karta.Geod.Sphere.C90_violated_order",
    "Karta.Geod.Sphere.C90_violated_southward",
    "Karta.Geod.Sphere.C90_all_cross_partial",
    "Karta.Geod.Sphere.C90_violated_one_miss"
   ],
   "note": "NoIntersection of any one pair aborts the whole query (C90_violated_one_miss), segments that run southwards along a meridian never cross anything (C90_violated_southward), and crossings of segments shorter than half a degree between the meridians 90 and 180 are missed or found depending on the order of the lines (C90_violated_far_side, C90_violated_order); proved when every pair of segments crosses."
  },
  {
   "property": "C91",
   "status": "proved",
   "theorems": [
    "Karta.Along.C91_cumulative",
    "Karta.Along.C91_increasing",
    "Karta.Along.C91_displacement"
   ],
   "note": "Fully proved over the reals for planar systems."
  },
  {
   "property": "C92",
   "status": "partial",
   "theorems": [
    "Karta.Along.C92_equal_spacing_partial",
    "Karta.Along.C92_violated_short"
   ],
   "note": "Proved (count and exact positions) for lines longer than 1e-8 times the number of gaps; the last point is exact if the last segment is longer than 1e-8 and within 1e-8 otherwise. False for shorter lines, where points are missing (C92_violated_short)."
  },
  {
   "property": "C93",
   "status": "partial",
   "theorems": [
    "Karta.Along.C93_spacing_partial",
    "Karta.Along.C93_violated_short_segments"
   ],
   "note": "Proved when every segment after the first is at least as long as the spacing (or has no length). False otherwise: the remainder of consecutive short segments is overwritten instead of added up (C93_violated_short_segments)."
  },
  {
   "property": "C94",
   "status": "partial",
   "theorems": [
    "Karta.Geod.Geodesic.C94_great_circle_partial",
    "Karta.Geod.Geodesic.C94_return_partial",
    "Karta.Geod.Geodesic.C94_distance_partial",
    "Karta.Geod.Geodesic.C94_equator"
   ],
   "note": "Proved over the reals for spheres when the destination is not a pole (there tan is not defined), and for the equator of every ellipsoid. Other directions on an ellipsoid, where the code uses truncated series, are the subject of C176."
  },
  {
   "property": "C95",
   "status": "proved",
   "theorems": [
    "Karta.Geod.Geodesic.C95_reach",
    "Karta.Geod.Geodesic.C95_arrival"
   ],
   "note": "Proved over the reals. Poles are excluded because the code takes the tangent of the latitude there."
  },
  {
   "property": "C96",
   "status": "partial",
   "theorems": [
    "Karta.Geod.Geodesic.C96_area_partial",
    "Karta.Geod.Geodesic.C96_violated_equator",
    "Karta.Geod.Geodesic.C96_violated_dateline"
   ],
   "note": "Proved when every ring stays on one side of the equator, keeps away from the poles and does not cross the date line. False otherwise: a quadrangle symmetric about the equator has area 0 (C96_violated_equator), and sides across the date line count with the wrong sign (C96_violated_dateline). The area is an integral over longitude in the specification."
  },
  {
   "property": "C97",
   "status": "partial",
   "theorems": [
    "Karta.Geod.Geodesic.C97_sphere_partial",
    "Karta.Geod.Geodesic.C97_violated_cancelling"
   ],
   "note": "Proved for points off the equator when the longitudes are equal, opposite, or not nearly opposite and the latitudes do not nearly cancel. False otherwise: the solver divides by the flattening 0 when the latitudes nearly cancel (C97_violated_cancelling). Points both on the equator are treated in C77, ellipsoids in C177."
  },
  {
   "property": "C98",
   "status": "proved",
   "theorems": [
    "Karta.Vec.C98_ring",
    "Karta.Vec.C98_contains_constant",
    "Karta.Vec.C98_reaches_outside",
    "Karta.Vec.C98_crossing",
    "Karta.Vec.C98_enter"
   ],
   "note": "Proved for all rings and nested polygons: the winding count is constant along segments that avoid the boundary, zero to the left of the ring, and changes by exactly one when one side is crossed."
  },
  {
   "property": "C99",
   "status": "partial",
   "theorems": [
    "Karta.Multi.C99_sound_partial",
    "Karta.Multi.C99_exact_partial",
    "Karta.Multi.C99_violated_hole",
    "Karta.Multi.C99_violated_flat"
   ],
   "note": "Soundness for any number of parts and exactness for parts with a width and a height whose index is intact (at most fifty parts, or two levels built without mishap), when neither geometry crosses itself, they do not meet in vertices (C36) and the parts avoid the holes' boundaries. False otherwise: a line across a hole is returned (C99_violated_hole), horizontal and vertical lines never are (C99_violated_flat); beyond fifty parts the index itself can lose parts (C26). The theorems hold for open and closed parts; the parts of a Multipolygon are open, without their closing side (C159_violated_within)."
  },
  {
   "property": "C100",
   "status": "partial",
   "theorems": [
    "Karta.Multi.C100_polygon_partial",
    "Karta.Multi.C100_line_partial",
    "Karta.Multi.C100_sound_partial",
    "Karta.Multi.C100_violated_flat"
   ],
   "note": "Soundness for any number of parts and exactness for parts whose boxes share an area and whose index is intact (at most fifty parts, or two levels built without mishap), under the conditions of C99. False for horizontal and vertical lines (C100_violated_flat); beyond fifty parts the index itself can lose parts (C26). The theorems hold for open and closed parts; the parts of a Multipolygon are open, without their closing side (C159_violated_touching)."
  },
  {
   "property": "C101",
   "status": "partial",
   "theorems": [
    "Karta.Join.C101_lines",
    "Karta.Join.C101_points",
    "Karta.Join.C101_polygons_partial",
    "Karta.Join.C101_violated_ranks",
    "Karta.Join.C101_violated_holes"
   ],
   "note": "Proved for points and lines of any ranks and for polygons of equal rank. Polygons of different ranks raise NameError (C101_violated_ranks) and multipolygons made from polygons with holes cannot be merged at all (C101_violated_holes)."
  },
  {
   "property": "C102",
   "status": "proved",
   "theorems": [
    "Karta.Fit.C102_best",
    "Karta.Fit.C102_unique",
    "Karta.Fit.C102_recovers",
    "Karta.Fit.C102_refuses",
    "Karta.Fit.C102_apply"
   ],
   "note": "numpy's least-squares solver is a parameter assumed to return a minimiser of the sum of squares; the model builds its system and reshapes its answer."
  },
  {
   "property": "C103",
   "status": "proved",
   "theorems": [
    "Karta.NearProj.C103_near",
    "Karta.NearProj.C103_distance",
    "Karta.NearProj.C103_ends",
    "Karta.NearProj.C103_defaults",
    "Karta.NearProj.C103_convergence_error"
   ],
   "note": "Forward and inverse geodesic functions are parameters, assumed to agree at the ends, and the distance is assumed to fall and then rise along the segment, which valley_sphere proves for the sphere; real arithmetic. The tolerance is exceeded by the finite-difference step, one ten-millionth of the length."
  },
  {
   "property": "C104",
   "status": "partial",
   "theorems": [
    "Karta.Geod.LatBound.C104_segment_partial",
    "Karta.Geod.LatBound.C104_box_partial",
    "Karta.Geod.LatBound.C104_violated_crossing"
   ],
   "note": "Proved for segments between different places that are not opposite each other, both in the same hemisphere, on one meridian or at most 90 degrees of longitude apart. False for other segments across the equator: the peak is ignored (C104_violated_crossing)."
  },
  {
   "property": "C105",
   "status": "partial",
   "theorems": [
    "Karta.Exch.C105_vertices_partial",
    "Karta.Exch.C105_polygons_partial",
    "Karta.Exch.C105_properties_partial",
    "Karta.Exch.C105_violated_crs_and_data",
    "Karta.Exch.C105_violated_properties",
    "Karta.Exch.C105_violated_multipolygon",
    "Karta.Exch.C105_violated_empty_part"
   ],
   "note": "Vertices come back for points with two or three coordinates, lines, multipoints, multilines and polygons with holes (if the coordstring package drops the closing vertex of a ring), properties for points, lines, polygons and multipoints. The coordinate system becomes Cartesian and data fields are lost in every case, multilines and multipolygons lose their properties and the rings of multipolygons grow by a vertex (C105_violated theorems). A multiline with an empty part cannot be exported (C105_violated_empty_part)."
  },
  {
   "property": "C106",
   "status": "partial",
   "theorems": [
    "Karta.Exch.C106_points_and_lines_partial",
    "Karta.Exch.C106_polygons_partial",
    "Karta.Exch.C106_violated_holes",
    "Karta.Exch.C106_violated_converted_holes",
    "Karta.Exch.C106_violated_no_urn",
    "Karta.Exch.C106_violated_multipolygon",
    "Karta.Exch.C106_multiparts_partial",
    "Karta.Exch.C106_violated_same_length",
    "Karta.Exch.C106_violated_empty_part"
   ],
   "note": "Proved for points, lines, polygons without holes, multipoints and multilines none of whose properties has the length of the collection. False otherwise: holes come back as lists on which contains and as_geojson raise (C106_violated_holes), holes are dropped if coordinates are converted, rings of multipolygons grow, properties of that length become data, and export without conversion and URN raises NameError. The serializer is a parameter that keeps or reverses rings. A multiline with an empty part cannot be exported (C106_violated_empty_part)."
  },
  {
   "property": "C107",
   "status": "partial",
   "theorems": [
    "Karta.Exch.C107_single_partial",
    "Karta.Exch.C107_no_fields_partial",
    "Karta.Exch.C107_violated_multiparts"
   ],
   "note": "Proved for points, lines, polygons and collections without fields. Collections with fields gain them as properties that hide the value of each part (C107_violated_multiparts)."
  },
  {
   "property": "C108",
   "status": "partial",
   "theorems": [
    "Karta.Gpx.C108_tracks_and_routes_partial",
    "Karta.Gpx.C108_violated_extensions",
    "Karta.Gpx.C108_violated_waypoints",
    "Karta.Gpx.C108_lines_partial"
   ],
   "note": "Proved for documents written without waypoints whose keys are not names of GPX containers, with writing and parsing of XML and numbers as parameters. A document with a waypoint cannot be read (C108_violated_waypoints) and tracks, segments and routes gain a property (C108_violated_extensions)."
  },
  {
   "property": "C109",
   "status": "partial",
   "theorems": [
    "Karta.Gpx.C109_tracks_partial",
    "Karta.Gpx.C109_violated_lines",
    "Karta.Gpx.C109_violated_height",
    "Karta.Gpx.C109_violated_routes",
    "Karta.Gpx.C109_routes_partial",
    "Karta.Gpx.C109_waypoints"
   ],
   "note": "Proved for waypoints, for tracks of multipoints and for routes without attributes. Lines cannot be added as tracks, routes with attributes raise TypeError and heights are lost without a known attribute (C109_violated theorems)."
  },
  {
   "property": "C110",
   "status": "partial",
   "theorems": [
    "Karta.Grid.C110_nearest_partial",
    "Karta.Grid.C110_spacing_refused",
    "Karta.Grid.C110_method_refused",
    "Karta.Grid.C110_violated_single_column",
    "Karta.Grid.C110_violated_bands",
    "Karta.Grid.C110_violated_skew"
   ],
   "note": "Proved for grids of one band without skew, unless the result would have one column and several rows. That case returns one row (C110_violated_single_column), more bands are scrambled (C110_violated_bands) and skewed grids are extended beyond their centres (C110_violated_skew)."
  },
  {
   "property": "C111",
   "status": "partial",
   "theorems": [
    "Karta.Grid.C111_own_spacing_partial",
    "Karta.Grid.C111_violated_bands",
    "Karta.Grid.C111_violated_skew"
   ],
   "note": "Proved for grids of one band without skew. With several bands the values are scrambled (C111_violated_bands), and skewed grids grow (C111_violated_skew)."
  },
  {
   "property": "C112",
   "status": "partial",
   "theorems": [
    "Karta.Grid.C112_linear_partial",
    "Karta.Grid.C112_violated_skew"
   ],
   "note": "Proved for grids of any number of bands without skew, of at least two rows and columns, when the result has at least two rows and columns. Skewed grids are extended by cells of nodata (C112_violated_skew); results of a single column are turned into a row (C110_violated_single_column)."
  },
  {
   "property": "C113",
   "status": "proved",
   "theorems": [
    "Karta.Grid.C113_cellwise",
    "Karta.Grid.C113_mismatch_refused",
    "Karta.Grid.C113_bands_refused",
    "Karta.Grid.C113_sub_add",
    "Karta.Grid.C113_nodata_summed"
   ],
   "note": "Cells are combined without regard to nodata: C113_nodata_summed shows that a missing cell becomes data."
  },
  {
   "property": "C114",
   "status": "partial",
   "theorems": [
    "Karta.Grid.C114_centers_partial",
    "Karta.Grid.C114_bbox_partial",
    "Karta.Grid.C114_violated_right",
    "Karta.Grid.C114_violated_negative_rows",
    "Karta.Grid.C114_violated_bands"
   ],
   "note": "Proved for one band, no skew, cells running right and up, where some data lie to the right of the number used as the y coordinate of the first row, as the running maximum of x starts there. Otherwise the right edge is wrong (C114_violated_right), for rows running down the lower edge is (C114_violated_negative_rows), and more bands raise IndexError (C114_violated_bands)."
  },
  {
   "property": "C115",
   "status": "partial",
   "theorems": [
    "Karta.Grid.C115_max_min",
    "Karta.Grid.C115_minmax",
    "Karta.Grid.C115_violated_bands"
   ],
   "note": "max and min look only at cells that hold data in all bands (C115_max_min, C115_violated_bands); minmax is as claimed."
  },
  {
   "property": "C116",
   "status": "partial",
   "theorems": [
    "Karta.Grid.C116_align_origin_partial",
    "Karta.Grid.C116_violated_bands",
    "Karta.Grid.C116_violated_large_step"
   ],
   "note": "Proved for one band, when some centre of the result falls on the grid. Several bands are scrambled (C116_violated_bands); an error is raised when no centre falls on the grid (C116_violated_large_step)."
  },
  {
   "property": "C117",
   "status": "partial",
   "theorems": [
    "Karta.Obj.C117_refl",
    "Karta.Obj.C117_symm",
    "Karta.Obj.C117_exact_partial",
    "Karta.Obj.C117_trans_partial",
    "Karta.Obj.C117_violated_holes",
    "Karta.Obj.C117_violated_ranks",
    "Karta.Obj.C117_violated_transitive"
   ],
   "note": "Proved: reflexive, symmetric, exact without holes, transitive unless a projected system lies between two others. Holes are ignored (C117_violated_holes), multipoints of different rank raise ValueError (C117_violated_ranks), and geographical systems compare by identity (C117_violated_transitive)."
  },
  {
   "property": "C118",
   "status": "partial",
   "theorems": [
    "Karta.Obj.C118_points_partial",
    "Karta.Obj.C118_others_partial",
    "Karta.Obj.C118_violated_names",
    "Karta.Obj.C118_violated_zero"
   ],
   "note": "Proved for systems of one name and, except for points, coordinates without -0.0. Otherwise false (C118_violated_names, C118_violated_zero)."
  },
  {
   "property": "C119",
   "status": "partial",
   "theorems": [
    "Karta.Obj.C119_item",
    "Karta.Obj.C119_item_refused",
    "Karta.Obj.C119_iter",
    "Karta.Obj.C119_slice_line",
    "Karta.Obj.C119_slice_refused",
    "Karta.Obj.C119_slice_polygon_partial",
    "Karta.Obj.C119_violated_holes"
   ],
   "note": "Proved except that slices of polygons have no holes (C119_violated_holes)."
  },
  {
   "property": "C120",
   "status": "partial",
   "theorems": [
    "Karta.Obj.C120_to_line",
    "Karta.Obj.C120_multipoint_partial",
    "Karta.Obj.C120_line_partial",
    "Karta.Obj.C120_violated_line",
    "Karta.Obj.C120_violated_there_and_back"
   ],
   "note": "Proved for multipoints, for lines and polygons through points of one system, and for to_line. Coordinates of points in several systems are mixed (C120_violated_line), and the way back has one vertex more (C120_violated_there_and_back)."
  },
  {
   "property": "C121",
   "status": "proved",
   "theorems": [
    "Karta.Obj.C121_nearest_vertex",
    "Karta.Obj.C121_nearest_refused",
    "Karta.Obj.C121_any_within"
   ],
   "note": ""
  },
  {
   "property": "C122",
   "status": "proved",
   "theorems": [
    "Karta.Share.C122_properties",
    "Karta.Share.C122_assigned_points",
    "Karta.Share.C122_fields",
    "Karta.Share.C122_made",
    "Karta.Share.C122_shared_shifted",
    "Karta.Share.C122_shared_vertex"
   ],
   "note": "Proved exactly as stated. C122_shared_shifted and C122_shared_vertex are concrete cases where assigning to a derived geometry changes the original."
  },
  {
   "property": "C123",
   "status": "partial",
   "theorems": [
    "Karta.Share.C123_moved_partial",
    "Karta.Share.C123_kept_partial",
    "Karta.Share.C123_violated_column",
    "Karta.Share.C123_violated_added"
   ],
   "note": "Multilines and multipolygons: a collection without properties keeps its columns; in general its properties become columns and replace those of the same name (C123_moved_partial, C123_violated_column, C123_violated_added). Multipoints share the table (C122)."
  },
  {
   "property": "C124",
   "status": "partial",
   "theorems": [
    "Karta.Ellps.C124_named_are_ellipsoids",
    "Karta.Ellps.C124_ellps",
    "Karta.Ellps.C124_datum_partial",
    "Karta.Ellps.C124_violated_carthage",
    "Karta.Ellps.C124_axes_partial",
    "Karta.Ellps.C124_flattening_partial",
    "Karta.Ellps.C124_refused",
    "Karta.Ellps.C124_violated_sphere",
    "Karta.Ellps.C124_violated_alpha",
    "Karta.Ellps.C124_wkt_partial",
    "Karta.Ellps.C124_violated_datum"
   ],
   "note": "Proved except: datum carthage raises KeyError (C124_violated_carthage), a flattening of zero raises ZeroDivisionError (C124_violated_sphere), +alpha= is taken for +a= (C124_violated_alpha), and systems made from WKT are always on the datum WGS84 (C124_violated_datum)."
  },
  {
   "property": "C125",
   "status": "partial",
   "theorems": [
    "Karta.ShpFile.C125_order_partial",
    "Karta.ShpFile.C125_null_skipped",
    "Karta.ShpFile.C125_violated_height",
    "Karta.ShpFile.C125_violated_multipolygon",
    "Karta.ShpFile.C125_violated_mixed",
    "Karta.ShpFile.C125_empty_refused"
   ],
   "note": "Proved for lists of one type in the plane, for rings that do not come back to their first vertex. False for heights (C125_violated_height), multipolygons, which are lost altogether (C125_violated_multipolygon), and lists of several types (C125_violated_mixed). An empty list raises IndexError."
  },
  {
   "property": "C126",
   "status": "partial",
   "theorems": [
    "Karta.ShpFile.C126_attributes_partial",
    "Karta.ShpFile.C126_violated_dates",
    "Karta.ShpFile.C126_violated_none"
   ],
   "note": "Proved for numbers and text of the type of the column and for missing numbers. Dates and times come back as None (C126_violated_dates), missing text as 'None' (C126_violated_none)."
  },
  {
   "property": "C127",
   "status": "partial",
   "theorems": [
    "Karta.ShpFile.C127_written",
    "Karta.ShpFile.C127_violated_latlong",
    "Karta.ShpFile.C127_violated_cartesian",
    "Karta.ShpFile.C127_read_partial",
    "Karta.ShpFile.C127_violated_sphere",
    "Karta.ShpFile.C127_violated_datum"
   ],
   "note": "Proved for projected systems, for lonlat, longlat and latlon, and for the ellipsoid read. False for +proj=latlong (C127_violated_latlong), Cartesian coordinates (C127_violated_cartesian), spheres (C127_violated_sphere) and datums (C127_violated_datum)."
  },
  {
   "property": "C128",
   "status": "partial",
   "theorems": [
    "Karta.Tab.C128_history_partial",
    "Karta.Tab.C128_refused",
    "Karta.Tab.C128_no_table",
    "Karta.Tab.C128_violated_emptied",
    "Karta.Tab.C128_violated_short_row"
   ],
   "note": "Proved for tables that are not empty when a column is set and for rows with one value per field. A column set after the last row was deleted makes the table forget its other fields (C128_violated_emptied), and rows of any length are stored (C128_violated_short_row)."
  },
  {
   "property": "C129",
   "status": "partial",
   "theorems": [
    "Karta.Tab.C129_violated_always",
    "Karta.Tab.C129_violated_empty",
    "Karta.Tab.C129_no_values_partial"
   ],
   "note": "False for every table with a row and a field (C129_violated_always): the arguments of isinstance are in the wrong order. Tables without rows raise IndexError (C129_violated_empty)."
  },
  {
   "property": "C130",
   "status": "partial",
   "theorems": [
    "Karta.Profile.C130_point_partial",
    "Karta.Profile.C130_multipoint_partial",
    "Karta.Profile.C130_arrays_partial",
    "Karta.Profile.C130_refused",
    "Karta.Profile.C130_nearest_point",
    "Karta.Profile.C130_violated_scalars",
    "Karta.Profile.C130_violated_own_system"
   ],
   "note": "Proved for points, multipoints and arrays. Two numbers raise TypeError (C130_violated_scalars); giving the grid's own system by name fails if that system has no conversions, as the Cartesian one (C130_violated_own_system). The conversion of coordinates is a parameter with stated assumptions."
  },
  {
   "property": "C131",
   "status": "partial",
   "theorems": [
    "Karta.Profile.C131_profile_partial",
    "Karta.Profile.C131_violated_negative_spacing"
   ],
   "note": "Proved for a positive spacing and segments longer than it (see C93 for shorter ones). With negative cell sizes the default spacing is negative and the call never returns (C131_violated_negative_spacing)."
  },
  {
   "property": "C132",
   "status": "proved",
   "theorems": [
    "Karta.Mem.C132_balanced",
    "Karta.Mem.C132_separate"
   ],
   "note": "malloc is assumed to succeed. The bounding box computed by coordstring is assumed to contain the points before the first NaN."
  },
  {
   "property": "C133",
   "status": "partial",
   "theorems": [
    "Karta.Mem.C133_searches_partial",
    "Karta.Mem.C133_violated_leak"
   ],
   "note": "Answers and safety are proved for every sequence of searches; that they give back all memory is false: each search leaves two blocks behind (C133_violated_leak)."
  },
  {
   "property": "C134",
   "status": "partial",
   "theorems": [
    "Karta.Mem.C134_violated_leak",
    "Karta.Mem.C134_violated_failed_build",
    "Karta.Mem.C134_violated_double_free",
    "Karta.Mem.C134_small_partial"
   ],
   "note": "False: the arrays of children and all blocks of inner nodes are never freed (C134_violated_leak), nothing is freed if the construction fails (C134_violated_failed_build), and a box can be freed twice (C134_violated_double_free). Proved for indexes of one node, except for the array of children."
  },
  {
   "property": "C135",
   "status": "partial",
   "theorems": [
    "Karta.Mem.C135_search_partial",
    "Karta.Mem.C135_violated_leak"
   ],
   "note": "Safety is proved for every search that returns; the box of the query is never freed (C135_violated_leak). That the nodes visited are live is not part of this model."
  },
  {
   "property": "C136",
   "status": "partial",
   "theorems": [
    "Karta.Geod.Polar.C136_exact_partial",
    "Karta.Geod.Polar.C136_right_partial",
    "Karta.Geod.Polar.C136_violated_outside",
    "Karta.Geod.Polar.C136_violated_inside",
    "Karta.Geod.Polar.C136_holes",
    "Karta.Geod.Polar.C136_away"
   ],
   "note": "False (C136_violated_outside, C136_violated_inside). Proved: the answer is True exactly when no side passes due north of the point clockwise (C136_exact_partial), and the condition under which that is right; for all other polygons, points in a hole are not contained, and points outside the ring or in no hole as the ring says (C136_holes, C136_away)."
  },
  {
   "property": "C137",
   "status": "partial",
   "theorems": [
    "Karta.Geod.Cross.C137_point_partial",
    "Karta.Geod.Cross.C137_meridian_partial",
    "Karta.Geod.Cross.C137_violated_same_circle",
    "Karta.Geod.Cross.C137_violated_dateline",
    "Karta.Geod.Cross.C137_pair_partial"
   ],
   "note": "Proved for segments on different great circles that do not follow a meridian, do not reach the meridian 180 and span less than 180 degrees, and for a meridian against such a segment. False for two segments of the same great circle and for segments across the meridian 180. Rounding is not modelled."
  },
  {
   "property": "C138",
   "status": "partial",
   "theorems": [
    "Karta.Geod.Cross.C138_one_way_partial",
    "Karta.Geod.Cross.C138_found_partial",
    "Karta.Geod.Cross.C138_violated_turn",
    "Karta.Geod.Cross.C138_violated_missed"
   ],
   "note": "Proved for lines that go one way, in general position. False for lines that turn back: C138_violated_turn (for every order of the sweep line) and C138_violated_missed. In exact arithmetic the heights by which the sweep line is ordered are NaN; C138_found_partial and C138_violated_turn hold for every order and so do not depend on it."
  },
  {
   "property": "C139",
   "status": "partial",
   "theorems": [
    "Karta.Geod.HullSph.C139_encloses_partial",
    "Karta.Geod.HullSph.C139_all_but_first_arc_partial",
    "Karta.Geod.HullSph.C139_violated_repeated_vertex",
    "Karta.Geod.HullSph.C139_violated_dateline"
   ],
   "note": "Proved for vertices within 90 degrees of longitude of a meridian, without poles, when no position is repeated but the leftmost and those on the lowest great circle from it. False for repeated vertices (every ring repeats its first vertex) and across the meridian 180; vertices on the lowest great circle may be lost as in C46. Rounding is not modelled: in floating point the azimuth from a vertex to a copy of itself may be pi instead of 0."
  },
  {
   "property": "C140",
   "status": "partial",
   "theorems": [
    "Karta.Length.C140_length",
    "Karta.Length.C140_join",
    "Karta.Length.C140_metric",
    "Karta.Length.C140_planar",
    "Karta.Length.C140_scaled",
    "Karta.Length.C140_agrees_partial",
    "Karta.Length.C140_violated_height",
    "Karta.Length.C140_perimeter",
    "Karta.Length.C140_perimeter_invariant"
   ],
   "note": "Partial: for vertices with heights length and cumulative length disagree, since length ignores the third coordinate (C140_violated_height). Real arithmetic; the metric laws are assumptions for geographical systems (C87 proves them for great-circle distances) and proved for planar ones."
  },
  {
   "property": "C141",
   "status": "proved",
   "theorems": [
    "Karta.Float.C141_positions",
    "Karta.Float.C141_cell",
    "Karta.Float.C141_centre"
   ],
   "note": "Grids without skew. The model rounds every operation of positions, indices and coordinates by an arbitrary rounding function with the stated properties; the concrete round-half-even function `double` is shown to have them. No overflow or underflow."
  },
  {
   "property": "C142",
   "status": "partial",
   "theorems": [
    "Karta.Float.C142_resize_partial",
    "Karta.Float.C142_clip_partial",
    "Karta.Float.C142_clip_window_partial",
    "Karta.Float.C142_violated_resize",
    "Karta.Float.C142_violated_clip"
   ],
   "note": "Partial: proved for grids and boxes in whole multiples of a power of two (metres, halves of metres) of moderate size, and for clipping windows of any cell size when the edges of the box stay away from centres; violated for cells of 0.1: resizing to 0.1..0.4 keeps four columns instead of three (C142_violated_resize), clipping to reported centres loses a column (C142_violated_clip)."
  },
  {
   "property": "C143",
   "status": "partial",
   "theorems": [
    "Karta.Float.C143_merge_partial",
    "Karta.Float.C143_violated_misplaced",
    "Karta.Float.C143_violated_refused"
   ],
   "note": "Partial: proved for grids in whole multiples of a power of two; violated for cells of 0.1: a grid from 0 is put two columns right of one from -0.3 (C143_violated_misplaced), and in the other order the aligned grids are refused (C143_violated_refused)."
  },
  {
   "property": "C144",
   "status": "partial",
   "theorems": [
    "Karta.Float.C144_gridpoints_partial",
    "Karta.Float.C144_resample_partial",
    "Karta.Float.C144_violated_resample",
    "Karta.Float.C144_violated_gridpoints"
   ],
   "note": "Partial: proved for grids, spacings and points in whole multiples of a power of two; violated for cells of 0.1: at the own spacing eleven columns become ten (C144_violated_resample), and a point at 1 raises IndexError (C144_violated_gridpoints)."
  },
  {
   "property": "C145",
   "status": "partial",
   "theorems": [
    "Karta.Float.QT.C145_index_partial",
    "Karta.Float.QT.C145_violated_lost",
    "Karta.Float.QT.C145_violated_endless",
    "Karta.Float.QT.C145_radius_partial",
    "Karta.Float.QT.C145_violated_radius"
   ],
   "note": "Partial: proved for points whose coordinates are equal or sufficiently far apart (Spaced), and for radii with all numbers in whole units up to 2^22; violated: with 0.3 and 0.1+0.2 among 52 points a point is lost (C145_violated_lost), with a leaf capacity of four the construction never ends for neighbouring doubles (C145_violated_endless), and within_radius depends on the index (C145_violated_radius)."
  },
  {
   "property": "C146",
   "status": "partial",
   "theorems": [
    "Karta.Float.RT.C146_overlap_partial",
    "Karta.Float.RT.C146_units_partial",
    "Karta.Float.RT.C146_violated_missed",
    "Karta.Float.RT.C146_violated_within",
    "Karta.Float.RT.C146_violated_bbox"
   ],
   "note": "Partial: up to M geometries (one node). Overlap searches never report a geometry that does not overlap; exact for bounds in whole units up to 2^24. Violated: a polygon ten centimetres high at northing 4100000 is never found (C146_violated_missed), one that reaches beyond the query is reported within it (C146_violated_within), the box of the index does not contain its geometries (C146_violated_bbox)."
  },
  {
   "property": "C147",
   "status": "partial",
   "theorems": [
    "Karta.Float.C147_clear_partial",
    "Karta.Float.C147_units_partial",
    "Karta.Float.C147_violated_gap",
    "Karta.Float.C147_violated_both"
   ],
   "note": "Partial: proved for points not closer to the line of an edge beside them than the rounding errors (Clear), and for all points if coordinates are whole units up to 2^24; violated otherwise: a point of a quadrilateral in neither of its two halves (C147_violated_gap), or in both (C147_violated_both). Assumes that the compiler does not fuse multiplications and subtractions."
  },
  {
   "property": "C148",
   "status": "partial",
   "theorems": [
    "Karta.Float.C148_close_partial",
    "Karta.Float.C148_units_partial",
    "Karta.Float.C148_violated_180",
    "Karta.Float.C148_violated_opposite",
    "Karta.Float.C148_violated_360"
   ],
   "note": "Partial: range with both ends included and error bound for every angle; exact for angles in whole multiples of a power of two from 2^-44 to 4 degrees. Violated: the double below -180 becomes 180 and reducing it again -180 (C148_violated_180), the double below 180 becomes -180 (C148_violated_opposite), small negative angles unroll to 360 (C148_violated_360)."
  },
  {
   "property": "C149",
   "status": "partial",
   "theorems": [
    "Karta.Float.C149_close_partial",
    "Karta.Float.C149_violated_outside",
    "Karta.Float.C149_violated_180",
    "Karta.Float.C149_units_partial"
   ],
   "note": "Partial: without crossings of the meridian 180 the limits differ from the extreme longitudes by at most 2^-43 degrees; exact for longitudes in whole multiples of a power of two, with any number of crossings (what exact arithmetic gives then is C76). Violated: the box of a line from 0 to 0.1 ends west of 0.1 (C149_violated_outside); just below 180 the eastern limit becomes -180 (C149_violated_180)."
  },
  {
   "property": "C150",
   "status": "partial",
   "theorems": [
    "Karta.Geod.Geodesic.C150_start",
    "Karta.Geod.Geodesic.C150_direction",
    "Karta.Geod.Geodesic.C150_shift",
    "Karta.Geod.Geodesic.C150_mirror",
    "Karta.Geod.Geodesic.C150_violated_equator",
    "Karta.Geod.Geodesic.C150_flat"
   ],
   "note": "Proved over the reals for every root finder and tolerance: start, direction, shift and mirrors for all polygons whose area is a number; flat rings on every oblate ellipsoid. Missing: positive area, which fails for polygons that cross the equator (C150_violated_equator: a rectangle symmetric about the equator has area 0) and, as on the sphere (C96), for sides across the date line. The value itself is a truncated series and not compared with the true area. At the poles and for nodes half a turn apart the model's tangent is 0 where the code's is huge."
  },
  {
   "property": "C151",
   "status": "partial",
   "theorems": [
    "Karta.Grid.C151_cells_partial",
    "Karta.Grid.C151_values_partial",
    "Karta.Grid.C151_all",
    "Karta.Grid.C151_violated_negative",
    "Karta.Grid.C151_violated_beyond",
    "Karta.Grid.C151_violated_single_row",
    "Karta.Grid.C151_violated_empty"
   ],
   "note": "Proved for all slices and all integers that are not negative, where of two slices each selects more than one row or column, including agreement with the values read by the same keys (through C05) and with center_coords for the whole grid. Missing because false: negative integers are taken literally (C151_violated_negative), integers beyond the grid are accepted (C151_violated_beyond), a slice of one row loses its axis (C151_violated_single_row), an empty slice raises (C151_violated_empty)."
  },
  {
   "property": "C152",
   "status": "partial",
   "theorems": [
    "Karta.Tab.C152_columns_partial",
    "Karta.Tab.C152_refused",
    "Karta.Tab.C152_lossless",
    "Karta.Tab.C152_violated_nesting",
    "Karta.Tab.C152_violated_unsigned"
   ],
   "note": "Proved: fields, order and values are right up to one more level of lists, nothing is lost, and what is refused raises TypeError. Missing because false: the column is wrapped in a list of one element (C152_violated_nesting, for every table and field), and numpy's unsigned and boolean numbers are refused (C152_violated_unsigned). NaN and infinities are left out."
  },
  {
   "property": "C153",
   "status": "partial",
   "theorems": [
    "Karta.Obj.C153_collection_partial",
    "Karta.Obj.C153_own_parts",
    "Karta.Obj.C153_vertices",
    "Karta.Obj.C153_violated_holes"
   ],
   "note": "Proved: own parts are always members; exactness when no holes are involved; exactness for points of lines and polygons. Missing because false: a polygon with other holes than any part is reported as a member (C153_violated_holes), since equality of polygons ignores holes (C117)."
  },
  {
   "property": "C154",
   "status": "partial",
   "theorems": [
    "Karta.Float.C154_inside_partial",
    "Karta.Float.C154_near",
    "Karta.Float.C154_order",
    "Karta.Float.C154_corner_exact",
    "Karta.Float.C154_violated_corner",
    "Karta.Float.C154_violated_beyond"
   ],
   "note": "Proved for every rounding with 53 bits and all zoom levels: right column at least 360/2^50 degrees inside the borders, the column found always contains the longitude up to 360/2^50 degrees, monotone, corners exact up to zoom level 40. Missing because false: the corner of tile 1 at zoom level 5 is looked up in tile 0 (C154_violated_corner), and the double below 180 in a column that does not exist (C154_violated_beyond). Rows (latitudes) are not modelled with rounding."
  },
  {
   "property": "C155",
   "status": "partial",
   "theorems": [
    "Karta.Float.C155_area_units_partial",
    "Karta.Float.C155_area_error_partial",
    "Karta.Float.C155_clockwise_clear_partial",
    "Karta.Float.C155_clockwise_units_partial",
    "Karta.Float.C155_centroid_units_partial",
    "Karta.Float.C155_violated_centroid",
    "Karta.Float.C155_violated_clockwise",
    "Karta.Float.C155_violated_area"
   ],
   "note": "Proved for every rounding with 53 bits: area, orientation and (up to one rounding) centroid exact for coordinates in whole units within stated sizes; an error bound for the area of any polygon without holes; orientation right whenever the area exceeds the stated rounding error. Missing because false: the centroid of a square of 1 m at ordinary map coordinates with one decimal is more than 800 m away (C155_violated_centroid); slivers get the wrong orientation (C155_violated_clockwise) or no area (C155_violated_area). Sums are taken from left to right (Python before 3.12 or numpy scalars)."
  },
  {
   "property": "C156",
   "status": "partial",
   "theorems": [
    "Karta.Float.C156_clear_partial",
    "Karta.Float.C156_units_partial",
    "Karta.Float.C156_test_units_partial",
    "Karta.Float.C156_count_units_partial",
    "Karta.Float.C156_violated_missed",
    "Karta.Float.C156_violated_order"
   ],
   "note": "Proved for every rounding with 53 bits: the right answer for any coordinates when no end is very close to the other segment's line (Distinct); in whole units up to 2^24 the same answer as without rounding for all pairs, the point within three roundings of the exact one and within the box of the first segment, the same number of intersections for lines and polygons, the same answer of the pair test of intersects. Missing because false: a path and a line that cross in a corner of the path are reported not to meet (C156_violated_missed); the point found depends on the order (C156_violated_order)."
  },
  {
   "property": "C157",
   "status": "partial",
   "theorems": [
    "Karta.Verts.C157_own",
    "Karta.Verts.C157_columns",
    "Karta.Verts.C157_coords",
    "Karta.Verts.C157_vertices_partial",
    "Karta.Verts.C157_agree",
    "Karta.Verts.C157_point_partial",
    "Karta.Verts.C157_multiline_partial",
    "Karta.Verts.C157_multipolygon_partial",
    "Karta.Verts.C157_refused",
    "Karta.Verts.C157_violated_line",
    "Karta.Verts.C157_violated_heights",
    "Karta.Verts.C157_violated_holes",
    "Karta.Verts.C157_violated_hole_place"
   ],
   "note": "Proved for all geometries in their own system, for all flat geometries in any system, and for coords in general; vertices and coords agree; Cartesian systems are refused. Missing because false: lines, polygons and multipoints with heights raise AttributeError in any other system (C157_violated_line), points and parts of collections silently lose their heights (C157_violated_heights), a collection built from polygons with holes has no vertices in its own system (C157_violated_holes) and in another one shows the holes in the wrong place (C157_violated_hole_place)."
  },
  {
   "property": "C158",
   "status": "partial",
   "theorems": [
    "Karta.Verts.C158_points_partial",
    "Karta.Verts.C158_lines_partial",
    "Karta.Verts.C158_lines_same",
    "Karta.Verts.C158_polygons_partial",
    "Karta.Verts.C158_violated_holes",
    "Karta.Verts.C158_violated_heights",
    "Karta.Verts.C158_violated_points"
   ],
   "note": "Proved for geometries without heights and holes in any systems, and for lines with heights in one system. Missing because false: holes are lost (C158_violated_holes); lines and polygons with heights cannot be added to ones in another system (C158_violated_heights), points with heights hand vertices of different lengths to the multipoint (C158_violated_points)."
  },
  {
   "property": "C159",
   "status": "partial",
   "theorems": [
    "Karta.Rings.C159_made_partial",
    "Karta.Rings.C159_crossings_partial",
    "Karta.Rings.C159_part_rings",
    "Karta.Rings.C159_part_arrays",
    "Karta.Rings.C159_violated_to_polygon",
    "Karta.Rings.C159_violated_parts",
    "Karta.Rings.C159_violated_crossings",
    "Karta.Rings.C159_violated_touching",
    "Karta.Rings.C159_violated_within"
   ],
   "note": "Proved for polygons made from coordinates or points, with sub-polygons made in this way: contains answers for every point as the region says, and crossings with the closing side are found. Missing because false: contains raises TypeError for every polygon made with to_polygon (C159_violated_to_polygon) and for every part of every Multipolygon (C159_violated_parts); the parts of a Multipolygon lack their closing side in crossings (C159_violated_crossings), so that touching misses them (C159_violated_touching) and within returns parts that stick out (C159_violated_within)."
  },
  {
   "property": "C160",
   "status": "partial",
   "theorems": [
    "Karta.Systems.C160_contains_partial",
    "Karta.Systems.C160_read_partial",
    "Karta.Systems.C160_violated_contains",
    "Karta.Systems.C160_violated_area"
   ],
   "note": "Proved for polygons all of whose systems can be converted to that of the point (or are it), and for polygons without holes read from files. Missing because false: a polygon with holes read from a shapefile with a coordinate system leaves its holes in the Cartesian default system, so that contains raises for every point in its ring (C160_violated_contains) and its area mixes units (C160_violated_area)."
  },
  {
   "property": "C161",
   "status": "partial",
   "theorems": [
    "Karta.CrossSys.C161_intersects_partial",
    "Karta.CrossSys.C161_apart",
    "Karta.CrossSys.C161_radius_plain",
    "Karta.CrossSys.C161_radius_partial",
    "Karta.CrossSys.C161_box",
    "Karta.CrossSys.C161_polygon_plain",
    "Karta.CrossSys.C161_polygon_partial",
    "Karta.CrossSys.C161_violated_radius",
    "Karta.CrossSys.C161_violated_missed",
    "Karta.CrossSys.C161_violated_spurious",
    "Karta.CrossSys.C161_violated_order",
    "Karta.CrossSys.C161_violated_intersections",
    "Karta.CrossSys.C161_violated_incomparable",
    "Karta.CrossSys.C161_violated_polygon"
   ],
   "note": "Proved: geometries whose converted boxes are apart do not intersect; without an index within_radius and within_polygon are exact for any conversion; with an index, radii are exact in one system and polygons for any affine conversion except on the border of the box, and never return a point outside. Missing because false: intersects sweeps the unconverted vertices and so misses (C161_violated_missed) and makes up (C161_violated_spurious) crossings and is not symmetric (C161_violated_order); intersections does the same (C161_violated_intersections) and answers where no conversion exists (C161_violated_incomparable); with an index a radius around a point of another system finds nothing as soon as positions move by twice the radius (C161_violated_radius), and polygons lose points when the conversion bends lines (C161_violated_polygon)."
  },
  {
   "property": "C162",
   "status": "partial",
   "theorems": [
    "Karta.Nest.C162_taken_partial",
    "Karta.Nest.C162_shown_partial",
    "Karta.Nest.C162_again_partial",
    "Karta.Nest.C162_violated_empty",
    "Karta.Nest.C162_bare"
   ],
   "note": "Proved for all structures without empty parts. Missing because false: an empty part anywhere raises IndexError, in constructors and in exports (C162_violated_empty); so a multiline with an empty part cannot be exported (C105_violated_empty_part, C106_violated_empty_part)."
  },
  {
   "property": "C163",
   "status": "partial",
   "theorems": [
    "Karta.CrsText.C163_wkt_partial",
    "Karta.CrsText.C163_proj4_own",
    "Karta.CrsText.C163_wkt_own",
    "Karta.CrsText.C163_proj4_of_wkt",
    "Karta.CrsText.C163_neither",
    "Karta.CrsText.C163_raster_partial",
    "Karta.CrsText.C163_geographical",
    "Karta.CrsText.C163_violated_latlong",
    "Karta.CrsText.C163_violated_raster"
   ],
   "note": "Proved for every geographical system, for definitions without the names latlon and lonlat, and for these two names where they are corrected; get_proj4 in general. Missing because false: the correction turns latlong, a name the library knows, into latlongg, so that the WKT text is empty (C163_violated_latlong); raster files of systems made with latlon have no reference (C163_violated_raster)."
  },
  {
   "property": "C164",
   "status": "partial",
   "theorems": [
    "Karta.Grid.C164_single_partial",
    "Karta.Grid.C164_pointwise_partial",
    "Karta.Grid.C164_violated_bands",
    "Karta.Grid.C164_untouched",
    "Karta.Grid.C164_violated_halfway"
   ],
   "note": "Proved for all grids of one band, for arbitrary functions of the list of values (C164_single_partial) and functions of single values (C164_pointwise_partial); without inplace the grid is never touched. Missing because false: on grids of two or more bands apply raises ValueError as soon as two cells hold data (C164_violated_bands, for every function that keeps the number of values), and in place it may change some bands before it raises (C164_violated_halfway)."
  },
  {
   "property": "C165",
   "status": "partial",
   "theorems": [
    "Karta.BandShare.C165_values_partial",
    "Karta.BandShare.C165_frame",
    "Karta.BandShare.C165_violated_shared",
    "Karta.BandShare.C165_violated_file",
    "Karta.BandShare.C165_new",
    "Karta.BandShare.C165_copy_sharing"
   ],
   "note": "Proved as a refinement: every history that gives no band object to two grids behaves as if grids were values, error by error (C165_values_partial); in any state a change of one grid is invisible in grids without a common band (C165_frame); after any history at all, shared bands or not, new grids show what they should and share no band with older ones, and copies keep the sharing among their own bands (C165_new, C165_copy_sharing). Missing because false: of two grids made of the same band, set_nodata_value on one turns the empty cells of the other into data (C165_violated_shared); grids that read from files can be neither copied nor resized (C165_violated_file)."
  },
  {
   "property": "C166",
   "status": "partial",
   "theorems": [
    "Karta.CopySys.C166_point_partial",
    "Karta.CopySys.C166_coords_partial",
    "Karta.CopySys.C166_positions_partial",
    "Karta.CopySys.C166_violated_cartesian",
    "Karta.CopySys.C166_clip"
   ],
   "note": "Proved for projected and geographical systems and conversions that depend only on the definitions of the systems and are the identity within one system (Faithful, with a witness): C166_point_partial, C166_coords_partial, C166_positions_partial; clip for all systems. Missing because false: in Cartesian systems, the default, every such lookup with a geometry or system of the original raises NotImplementedError on the copy (C166_violated_cartesian)."
  },
  {
   "property": "C167",
   "status": "partial",
   "theorems": [
    "Karta.ExtIn.C167_centers_partial",
    "Karta.ExtIn.C167_edges_partial",
    "Karta.ExtIn.C167_tight_partial",
    "Karta.ExtIn.C167_clip_partial",
    "Karta.ExtIn.C167_violated_bend",
    "Karta.ExtIn.C167_violated_clip"
   ],
   "note": "Proved for every conversion along which each coordinate of the image goes one way on horizontal and on vertical lines (OneWay: all affine maps, cylindrical projections) and grids without opposing skew: C167_centers_partial, C167_edges_partial, C167_clip_partial; without skew the bounds are attained, for every conversion (C167_tight_partial). Missing because false: conversions that bend lines put centres outside the extent (C167_violated_bend) and make clip drop cells of the box (C167_violated_clip); opposing skew, see C19. data_extent with crs is not modelled."
  },
  {
   "property": "C168",
   "status": "partial",
   "theorems": [
    "Karta.Float.C168_error",
    "Karta.Float.C168_between",
    "Karta.Float.C168_outside",
    "Karta.Float.C168_integers_partial",
    "Karta.Float.C168_off_by_one",
    "Karta.Float.C168_exact",
    "Karta.Float.C168_exact_integers",
    "Karta.Float.C168_centre",
    "Karta.Float.C168_violated_constant",
    "Karta.Float.C168_violated_point",
    "Karta.Float.C168_violated_below"
   ],
   "note": "Proved for every rounding with 53 bits: error at most 8/2^53 of the largest value (C168_error), range (C168_between), outside (C168_outside), cell centres (C168_centre), no rounding at positions in multiples of a power of one half (C168_exact, C168_exact_integers), integers never off by more than one (C168_off_by_one) and exact unless the interpolated value is next to an integer (C168_integers_partial). Missing because false: an integer grid that is 3 throughout is sampled as 2 at (1.1, 1.2) (C168_violated_constant, C168_violated_point), a grid of doubles as less than 3 (C168_violated_below)."
  },
  {
   "property": "C169",
   "status": "partial",
   "theorems": [
    "Karta.Float.C169_distance",
    "Karta.Float.C169_zero",
    "Karta.Float.C169_symmetric",
    "Karta.Float.C169_length",
    "Karta.Float.C169_cumulength",
    "Karta.Float.C169_extend",
    "Karta.Float.C169_nearest",
    "Karta.Float.C169_exact",
    "Karta.Float.C169_violated_reverse",
    "Karta.Float.C169_violated_detour"
   ],
   "note": "Proved for every rounding with 53 bits and every good square root: relative errors (C169_distance, C169_length), zero and sign (C169_zero), symmetry of distances (C169_symmetric), cumulative lengths (C169_cumulength), growth (C169_extend), nearest vertices (C169_nearest), exactness for whole coordinates and lengths (C169_exact). Missing because false: the length of a line may differ from that of its reverse (C169_violated_reverse), and a line by way of more vertices may have the smaller length (C169_violated_detour)."
  },
  {
   "property": "C170",
   "status": "partial",
   "theorems": [
    "Karta.Typed.C170_write",
    "Karta.Typed.C170_nodata_partial",
    "Karta.Typed.C170_violated_nodata",
    "Karta.Typed.C170_sum",
    "Karta.Typed.C170_violated_overflow",
    "Karta.Typed.C170_sub_add",
    "Karta.Typed.C170_violated_missing",
    "Karta.Typed.C170_resize_partial",
    "Karta.Typed.C170_violated_resize"
   ],
   "note": "Proved for all types and grids: assignment (C170_write), sums and differences up to multiples of 2^bits (C170_sum, C170_sub_add), nodata values that are numbers of the type (C170_nodata_partial, C170_resize_partial). Missing because false: a nodata value outside the type turns all missing pixels into data (C170_violated_nodata, C170_violated_resize), sums outside the type wrap around (C170_violated_overflow), and pixels missing in both grids hold data in the sum and the difference (C170_violated_missing). Bands of different types in one grid are not modelled."
  },
  {
   "property": "C171",
   "status": "partial",
   "theorems": [
    "Karta.AlongEnds.C171_to_points",
    "Karta.AlongEnds.C171_violated_spacing",
    "Karta.AlongEnds.C171_to_npoints",
    "Karta.AlongEnds.C171_violated_npoints"
   ],
   "note": "Proved over the reals: every positive spacing (C171_to_points), every n of at least two (C171_to_npoints), with bounds on the rounds. Missing because false: a spacing of zero or less never ends on any line of positive length (C171_violated_spacing), and neither does to_npoints(0) (C171_violated_npoints)."
  },
  {
   "property": "C172",
   "status": "partial",
   "theorems": [
    "Karta.FloatAffine.C172_error",
    "Karta.FloatAffine.C172_identity",
    "Karta.FloatAffine.C172_shift",
    "Karta.FloatAffine.C172_bbox",
    "Karta.FloatAffine.C172_turn",
    "Karta.FloatAffine.C172_back_partial",
    "Karta.FloatAffine.C172_violated_back",
    "Karta.FloatAffine.C172_violated_steps"
   ],
   "note": "Proved for every rounding that satisfies the assumptions of Float/Basic.lean. Shifting there and back is proved for coordinates and shifts that are whole numbers of units of a power of two, at most 2^52 of them (C172_back_partial). Missing because false: a far shift merges vertices and cannot be undone (C172_violated_back), and two shifts differ from the shift by their sum (C172_violated_steps)."
  },
  {
   "property": "C173",
   "status": "partial",
   "theorems": [
    "Karta.FloatSurface.C173_error",
    "Karta.FloatSurface.C173_sign_x",
    "Karta.FloatSurface.C173_sign_y_partial",
    "Karta.FloatSurface.C173_units_partial",
    "Karta.FloatSurface.C173_offset_partial",
    "Karta.FloatSurface.C173_missing",
    "Karta.FloatSurface.C173_violated_sign_y",
    "Karta.FloatSurface.C173_violated_offset"
   ],
   "note": "Error bound, missing cells and the sign of the first component are proved outright. The sign of the second component is proved where no value of one side exceeds a value of the other (C173_sign_y_partial), and independence of an offset for elevations in units of a power of two, at most 2^21 of them (C173_units_partial, C173_offset_partial). Missing because false: rows that agree get a slope between them, because the two sides are added up in different orders (C173_violated_sign_y), and an offset of 2^25 removes a slope of one (C173_violated_offset)."
  },
  {
   "property": "C174",
   "status": "partial",
   "theorems": [
    "Karta.FloatNearest.C174_answers",
    "Karta.FloatNearest.C174_wide",
    "Karta.FloatNearest.C174_narrow",
    "Karta.FloatNearest.C174_axis",
    "Karta.FloatNearest.C174_line",
    "Karta.FloatNearest.C174_shortest",
    "Karta.FloatNearest.C174_vertex",
    "Karta.FloatNearest.C174_violated_end",
    "Karta.FloatNearest.C174_violated_short"
   ],
   "note": "Error bounds are proved for segments wider than 0.0001 (C174_wide, growing with the slope of the segment), and for narrower ones that are not horizontal (C174_narrow); horizontal and vertical segments get points exactly on them (C174_axis). Every vertex but the last is at distance zero (C174_vertex). Missing because false: the last vertex of a line may be at a positive distance, because fl(fl(x1 - x0) + x0) need not be x1 (C174_violated_end), and on horizontal segments narrower than 0.0001 the point returned may be anywhere (C174_violated_short)."
  },
  {
   "property": "C175",
   "status": "partial",
   "theorems": [
    "Karta.Geod.AreaSeries.C175_side_partial",
    "Karta.Geod.AreaSeries.C175_geodesic",
    "Karta.Geod.AreaSeries.C175_series_partial",
    "Karta.Geod.AreaSeries.C175_quotient",
    "Karta.Geod.AreaSeries.C175_violated_coefficient",
    "Karta.Geod.AreaSeries.C175_area_partial"
   ],
   "note": "Proved over the reals: the value is the integral of the zone area along the geodesic (both integrals of the specification are exact, and C175_geodesic shows that its curve is a geodesic), with an explicit bound on the error (C175_side_partial, C175_area_partial). Missing because false: the error is of fifth and not of sixth order, because one of the coefficients is wrong (C175_violated_coefficient: 90/9009 where 80/9009 is right; C175_series_partial shows that all others are right). Missing from the model: rounding, sides that reach a pole, and sides to the opposite latitude that start southwards."
  },
  {
   "property": "C176",
   "status": "proved",
   "theorems": [
    "Karta.Geod.ForwardSeries.C176_forward",
    "Karta.Geod.ForwardSeries.C176_geodesic",
    "Karta.Geod.ForwardSeries.C176_earth"
   ],
   "note": "Proved over the reals. The specification integrates the length and the longitude along a geodesic exactly, and C176_geodesic shows that its curve is a geodesic with that speed. All coefficients of A1, C1, C1p, A3 and C3 are thereby shown to be right. Rounding is not modelled."
  },
  {
   "property": "C177",
   "status": "proved",
   "theorems": [
    "Karta.Geod.InverseSeries.C177_inverse",
    "Karta.Geod.InverseSeries.C177_meridian",
    "Karta.Geod.InverseSeries.C177_earth",
    "Karta.Geod.InverseSeries.C177_opposite",
    "Karta.Geod.InverseSeries.C177_first"
   ],
   "note": "Proved over the reals; that the geodesic is the shortest is not claimed, nor that the iteration converges for a fine tolerance (C177_first shows it for a coarse one). Pairs on the equator are left out (C77). Rounding is not modelled. On the Earth the errors are 1e-10 m and the tolerance plus 1e-16 radians."
  },
  {
   "property": "C178",
   "status": "partial",
   "theorems": [
    "Karta.Crossings.C178_side",
    "Karta.Crossings.C178_ring_partial",
    "Karta.Crossings.C178_line_partial",
    "Karta.Crossings.C178_ring_closing_partial",
    "Karta.Crossings.C178_direction",
    "Karta.Crossings.C178_violated_line",
    "Karta.Crossings.C178_violated_ring",
    "Karta.Crossings.C178_inside_partial",
    "Karta.Crossings.C178_contains_partial"
   ],
   "note": "The test of one side is proved right for all sides and points (C178_side, C178_direction). The count is proved for all sides but the last one of a line (C178_line_partial) or the closing one of a ring (C178_ring_partial), which are never counted; its parity agrees with containment if the ray does not meet the closing side (C178_inside_partial, C178_contains_partial). Missing because false: C178_violated_line, C178_violated_ring. Rounding is not modelled."
  },
  {
   "property": "C179",
   "status": "partial",
   "theorems": [
    "Karta.Geod.SphAz.C179_reaches",
    "Karta.Geod.SphAz.C179_only",
    "Karta.Geod.SphAz.C179_compiled",
    "Karta.Geod.SphAz.C179_sequences",
    "Karta.Geod.SphAz.C179_violated_mixed"
   ],
   "note": "Proved over the reals for numbers and for sequences; the compiled azimuth_sph is the same function. Missing because false: one position cannot be combined with many, the call raises TypeError (C179_violated_mixed). Second positions at a pole, where the tangent is not defined, and rounding are not modelled."
  },
  {
   "property": "C180",
   "status": "partial",
   "theorems": [
    "Karta.Float.HullF.C180_encloses_partial",
    "Karta.Float.HullF.C180_vertices",
    "Karta.Float.HullF.C180_violated_lost_vertex"
   ],
   "note": "C180_vertices holds for any rounding and library. C180_encloses_partial needs coordinates in units of a power of two with at most 22 bits, and the conditions of C46 (not collinear, one position on the lowest ray). With more digits a vertex can be lost (C180_violated_lost_vertex, coordinates of 29 bits, any accurate atan2). Operations are rounded one by one (no fused multiply-add) and do not overflow or underflow."
  },
  {
   "property": "C181",
   "status": "partial",
   "theorems": [
    "Karta.Float.SphereF.C181_error",
    "Karta.Float.SphereF.C181_near",
    "Karta.Float.SphereF.C181_defined_partial",
    "Karta.Float.SphereF.C181_violated_raises"
   ],
   "note": "C181_error and C181_near bound the error of every distance returned. C181_defined_partial: a distance is returned unless the positions are within 2^-22 radians of the same or of opposite positions. Missing because false: on the antimeridian the argument of acos can exceed 1, and the call raises ValueError (C181_violated_raises, for cosines rounded to the nearest)."
  },
  {
   "property": "C182",
   "status": "partial",
   "theorems": [
    "Karta.FlatDist.C182_flat",
    "Karta.FlatDist.C182_other_rank",
    "Karta.FlatDist.C182_other_rank_ground",
    "Karta.FlatDist.C182_agree",
    "Karta.FlatDist.C182_violated_other_system"
   ],
   "note": "Holds in one planar system with as many coordinates in the point as in the vertices (C182_flat, C182_agree). Otherwise the methods differ: with other numbers of coordinates flat_distances_to raises ValueError and distances_to ignores heights (C182_other_rank, C182_other_rank_ground); for a point in another system flat_distances_to subtracts coordinates of different systems (C182_violated_other_system)."
  },
  {
   "property": "C183",
   "status": "partial",
   "theorems": [
    "Karta.Float.TileRow.C183_near",
    "Karta.Float.TileRow.C183_inside_partial",
    "Karta.Float.TileRow.C183_order",
    "Karta.Float.TileRow.C183_south_pole",
    "Karta.Float.TileRow.C183_violated_border"
   ],
   "note": "C183_near: a row is returned, and it contains the latitude up to 2^-46 of the height of the map (0.6 micrometres). C183_inside_partial: the row is right for latitudes that far inside. C183_order: for libraries that keep the order, so do rows. Missing because false: just north of a border the row to the south may be returned, with every accurate library (C183_violated_border)."
  },
  {
   "property": "C184",
   "status": "partial",
   "theorems": [
    "Karta.Float.TileCorner.C184_accuracy",
    "Karta.Float.TileCorner.C184_order",
    "Karta.Float.TileCorner.C184_lookup_partial",
    "Karta.Float.TileCorner.C184_equator",
    "Karta.Float.TileCorner.C184_violated_lookup"
   ],
   "note": "C184_accuracy, C184_order and C184_equator hold as stated. Looking up a corner gives the row of the tile or the next one to the north (C184_lookup_partial); it is not always the row of the tile: with doubles and every accurate library, the corner of row 54351 at zoom level 19 is looked up in row 54350 (C184_violated_lookup). By the same formulas 25 of the rows at zoom level 7 are affected with the usual library; this is computed, not proved."
  },
  {
   "property": "C185",
   "status": "partial",
   "theorems": [
    "Karta.Vec.ShapeName.C185_read_what_was_saved",
    "Karta.Vec.ShapeName.C185_extension_optional",
    "Karta.Vec.ShapeName.C185_other_files_untouched",
    "Karta.Vec.ShapeName.C185_write_with_extension_partial",
    "Karta.Vec.ShapeName.C185_violated_plain_name"
   ],
   "note": "Proved for to_shapefile with every name. write_shapefile hands its name to the driver as it is: names ending in .shp are read back (C185_write_with_extension_partial), all others are not (C185_violated_plain_name). What the OGR driver does with a path is reduced to: it opens what it created under the same path."
  },
  {
   "property": "C186",
   "status": "partial",
   "theorems": [
    "Karta.Band.Props.C186_one_band_partial",
    "Karta.Band.Props.C186_violated_several_bands",
    "Karta.Band.Props.C186_iteration_agrees",
    "Karta.Band.Props.C186_array_of_all",
    "Karta.Band.Props.C186_no_bands"
   ],
   "note": "True as described for one band; for every grid of two or more bands the shape is (m, n) and not (N, m, n) (C186_violated_several_bands). The agreement of m and n with iteration and with grid[:,:] is proved for any number of bands; grid[:,:] has a last dimension for the bands also when there is one."
  }
 ]
}