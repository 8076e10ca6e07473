{
 "claims": [
  {
   "property": "C01",
   "status": "proved",
   "theorems": [
    "Rerecast.c01_connection_roundtrip",
    "Rerecast.c01_connection_range"
   ],
   "note": "all 2^32 words, four directions, all six-bit values"
  },
  {
   "property": "C02",
   "status": "proved",
   "theorems": [
    "Rerecast.c02_height_roundtrip"
   ],
   "note": "all words and heights"
  },
  {
   "property": "C03",
   "status": "proved",
   "theorems": [
    "Rerecast.c03_directions",
    "Rerecast.c03_documented_offsets",
    "Rerecast.c03_lookup_inverse",
    "Rerecast.c03_next_prev"
   ],
   "note": "finite direction table"
  },
  {
   "property": "C04",
   "status": "proved",
   "theorems": [
    "Rerecast.c04_vertex_word",
    "Rerecast.c04_final_word"
   ],
   "note": ""
  },
  {
   "property": "C05",
   "status": "proved",
   "theorems": [
    "Rerecast.c05_extend",
    "Rerecast.c05_extend_sequence"
   ],
   "note": ""
  },
  {
   "property": "C06",
   "status": "proved",
   "theorems": [
    "Rerecast.c06_aabb_exact"
   ],
   "note": "coordinates in an arbitrary linear order"
  },
  {
   "property": "C07",
   "status": "proved",
   "theorems": [
    "Rerecast.c07_mark_walkable",
    "Rerecast.c07_idempotent"
   ],
   "note": "the slope test is an uninterpreted predicate of a triangle's corners"
  },
  {
   "property": "C08",
   "status": "partial",
   "theorems": [
    "Rerecast.c08_compound_partial",
    "Rerecast.c08_violated",
    "Rerecast.c08_later_poses",
    "Rerecast.c08_single_child_pose_ignored"
   ],
   "note": "false: a child pose is applied to the children accumulated before it and not to the child itself (c08_violated); exact behaviour in c08_later_poses; proved when every pose is the identity"
  },
  {
   "property": "C09",
   "status": "proved",
   "theorems": [
    "Rerecast.c09_columns_sorted",
    "Rerecast.c09_no_leak_no_sharing"
   ],
   "note": "every valid insertion history, any grid size"
  },
  {
   "property": "C10",
   "status": "proved",
   "theorems": [
    "Rerecast.c10_occupied_iff_inserted"
   ],
   "note": "every valid insertion history"
  },
  {
   "property": "C100",
   "status": "proved",
   "theorems": [
    "Rerecast.c100_fills",
    "Rerecast.c100_contours"
   ],
   "note": "Exact arithmetic, hypotheses of C66. Sub-meshes with interior samples (retriangulated by delaunay_hull) are only known to turn the right way (C66) and are not covered. Flat triangles, with all corners on one side, are possible and excluded by HasArea."
  },
  {
   "property": "C101",
   "status": "proved",
   "theorems": [
    "Rerecast.c101_no_seams",
    "Rerecast.c101_told_apart",
    "Rerecast.c101_one_layer",
    "Rerecast.sideVertices_exist",
    "Rerecast.c101_seam_over_gap",
    "Rerecast.c101_seam_input"
   ],
   "note": "Any float arithmetic. Conditional on the heights along the side agreeing, as the property says; c101_one_layer gives a case in which they do, c101_seam_over_gap one in which they do not and the side gets different vertices."
  },
  {
   "property": "C102",
   "status": "proved",
   "theorems": [
    "Rerecast.c102_marks",
    "Rerecast.c102_gap",
    "Rerecast.c102_unrounded"
   ],
   "note": "IEEE single precision without infinities and NaN. c102_unrounded: the same model without rounding is that of C33. c102_gap: two triangles that share a side, and a cell whose centre is on it that both miss."
  },
  {
   "property": "C103",
   "status": "proved",
   "theorems": [
    "Rerecast.c103_slope",
    "Rerecast.c103_monotone",
    "Rerecast.c103_ramps",
    "Rerecast.c103_limit",
    "Rerecast.c103_level",
    "Rerecast.c103_vertices",
    "Rerecast.c103_slope_zero"
   ],
   "note": "Exact coordinates and exact real normal and cosine; rounding is not modelled. c103_limit: ground of exactly the maximum slope is not marked, although config.rs calls the setting the maximum that is walkable. c103_vertices and c103_slope_zero are about whole builds."
  },
  {
   "property": "C104",
   "status": "proved",
   "theorems": [
    "Rerecast.c104_moved",
    "Rerecast.c104_same_mesh",
    "Rerecast.c104_both",
    "Rerecast.c104_positions",
    "Rerecast.c104_triangle",
    "Rerecast.c104_slope"
   ],
   "note": "Exact arithmetic; with floats the move itself rounds. The polygon mesh only: the vertex buffer of the detail mesh keeps coordinates of earlier polygons (C68), and its floats are uninterpreted."
  },
  {
   "property": "C105",
   "status": "proved",
   "theorems": [
    "Rerecast.c105_same_box",
    "Rerecast.c105_same_triangles",
    "Rerecast.c105_no_stray",
    "Rerecast.c105_unreadable"
   ],
   "note": "Equality of the whole result of build_navmesh. The order of the triangles is kept: merging of spans depends on it."
  },
  {
   "property": "C106",
   "status": "proved",
   "theorems": [
    "Rerecast.c106_scaled",
    "Rerecast.c106_same_mesh",
    "Rerecast.c106_both",
    "Rerecast.c106_settings",
    "Rerecast.c106_positions",
    "Rerecast.c106_triangle",
    "Rerecast.c106_slope"
   ],
   "note": "Exact arithmetic; with floats, factors that are no powers of two round. The polygon mesh only, as in C104."
  },
  {
   "property": "C107",
   "status": "proved",
   "theorems": [
    "Rerecast.c107_unused",
    "Rerecast.c107_box",
    "Rerecast.c107_whole_level"
   ],
   "note": "c107_whole_level: a build with a box around a quarter of the level has vertices outside of the box."
  },
  {
   "property": "C108",
   "status": "partial",
   "theorems": [
    "Rerecast.c108_triangle_set_partial",
    "Rerecast.c108_object_order_partial",
    "Rerecast.c108_violated"
   ],
   "note": "Violated with steep triangles: a floor given after the walls on it makes the tops of the walls walkable, a floor given before them does not. Proved for whole builds (guards of C76) of scenes without steep triangles: only the set of triangles and the bounding box count."
  },
  {
   "property": "C11",
   "status": "proved",
   "theorems": [
    "Rerecast.c11_order_independent",
    "Rerecast.c11_areas_do_depend_on_order"
   ],
   "note": "geometry is order independent for non-empty blocks; areas are shown to be order dependent"
  },
  {
   "property": "C12",
   "status": "proved",
   "theorems": [
    "Rerecast.c12_frame"
   ],
   "note": ""
  },
  {
   "property": "C13",
   "status": "proved",
   "theorems": [
    "Rerecast.c13_merge_rule",
    "Rerecast.c13_area_requested"
   ],
   "note": ""
  },
  {
   "property": "C14",
   "status": "partial",
   "theorems": [
    "Rerecast.c14_snap_partial",
    "Rerecast.c14_violated"
   ],
   "note": "false: snapping aborts when the field is 65535 voxels tall or more (c14_violated); proved for every shorter field"
  },
  {
   "property": "C15",
   "status": "proved",
   "theorems": [
    "Rerecast.c15_filters_keep_geometry",
    "Rerecast.c09_reachable_wellformed"
   ],
   "note": "every well-formed heightfield (stated through column iteration); c09_reachable_wellformed shows insertions reach only such heightfields"
  },
  {
   "property": "C16",
   "status": "proved",
   "theorems": [
    "Rerecast.c16_low_hanging",
    "Rerecast.c16_not_idempotent"
   ],
   "note": "exact per-span effect; also shown: the filter is not idempotent"
  },
  {
   "property": "C17",
   "status": "proved",
   "theorems": [
    "Rerecast.c17_ledge_verdict",
    "Rerecast.c17_ledge_idempotent"
   ],
   "note": "verdict equals an independent per-span test on the geometry before the filter"
  },
  {
   "property": "C18",
   "status": "proved",
   "theorems": [
    "Rerecast.c18_head_room",
    "Rerecast.c18_idempotent"
   ],
   "note": ""
  },
  {
   "property": "C19",
   "status": "proved",
   "theorems": [
    "Rerecast.c19_exactly_the_walkable_spans"
   ],
   "note": "every well-formed heightfield whose conversion succeeds"
  },
  {
   "property": "C20",
   "status": "proved",
   "theorems": [
    "Rerecast.c20_wellformed"
   ],
   "note": "index ranges enumerate all spans exactly once; also connections stay inside neighbouring cells"
  },
  {
   "property": "C21",
   "status": "proved",
   "theorems": [
    "Rerecast.c21_connections_sound"
   ],
   "note": ""
  },
  {
   "property": "C22",
   "status": "partial",
   "theorems": [
    "Rerecast.c22_connections_complete_partial",
    "Rerecast.c22_connection_exact_partial",
    "Rerecast.c22_violated"
   ],
   "note": "the full property is false of the code: layer 62 is silently dropped (c22_violated); proved under at most 62 spans per cell, and exactly characterised without that bound"
  },
  {
   "property": "C23",
   "status": "partial",
   "theorems": [
    "Rerecast.c23_connections_symmetric_partial",
    "Rerecast.c22_violated"
   ],
   "note": "false at 63 layers (c22_violated); proved under at most 62 spans per cell"
  },
  {
   "property": "C24",
   "status": "partial",
   "theorems": [
    "Rerecast.c24_outcome",
    "Rerecast.c24_succeeds_partial",
    "Rerecast.c24_violated_panic",
    "Rerecast.c22_violated"
   ],
   "note": "false: panics with 256 walkable spans in a column, and drops layer 62 without an error; exact outcome proved"
  },
  {
   "property": "C25",
   "status": "proved",
   "theorems": [
    "Rerecast.c25_only_removes",
    "Rerecast.c25_radius_zero",
    "Rerecast.c25_outcome"
   ],
   "note": "every well-formed compact heightfield, every radius; radii above 32767 panic (c25_outcome)"
  },
  {
   "property": "C26",
   "status": "proved",
   "theorems": [
    "Rerecast.c26_clearance"
   ],
   "note": "stated for every cell within chamfer cost 2r, which includes the diamond of radius r"
  },
  {
   "property": "C27",
   "status": "proved",
   "theorems": [
    "Rerecast.c27_removed_is_near_edge",
    "Rerecast.c27_edges_removed"
   ],
   "note": ""
  },
  {
   "property": "C28",
   "status": "partial",
   "theorems": [
    "Rerecast.c28_monotone_partial",
    "Rerecast.c28_violated"
   ],
   "note": "false: radius 128 wraps to 0 (c28_violated); proved when the radii do not wrap differently"
  },
  {
   "property": "C29",
   "status": "proved",
   "theorems": [
    "Rerecast.c29_no_panic"
   ],
   "note": ""
  },
  {
   "property": "C30",
   "status": "proved",
   "theorems": [
    "Rerecast.c30_raw_distances",
    "Rerecast.c30_clearance"
   ],
   "note": ""
  },
  {
   "property": "C31",
   "status": "proved",
   "theorems": [
    "Rerecast.c31_bounded_by_max",
    "Rerecast.c31_smoothing"
   ],
   "note": ""
  },
  {
   "property": "C32",
   "status": "partial",
   "theorems": [
    "Rerecast.c32_succeeds_iff_partial",
    "Rerecast.c32_violated",
    "Rerecast.c32_empty_panics"
   ],
   "note": "false: a field without spans panics (c32_violated); proved for all others"
  },
  {
   "property": "C33",
   "status": "partial",
   "theorems": [
    "Rerecast.c33_marks_exactly_partial",
    "Rerecast.c33_idempotent",
    "Rerecast.c33_violated"
   ],
   "note": "exact arithmetic; false for a volume that ends less than one cell height below the field (c33_violated); proved for all other volumes, polygons and fields"
  },
  {
   "property": "C34",
   "status": "proved",
   "theorems": [
    "Rerecast.c34_regions_only_on_walkable",
    "Rerecast.ready_of_distance_field"
   ],
   "note": ""
  },
  {
   "property": "C35",
   "status": "proved",
   "theorems": [
    "Rerecast.c35_regions_uniform"
   ],
   "note": ""
  },
  {
   "property": "C36",
   "status": "proved",
   "theorems": [
    "Rerecast.c36_ids_bounded",
    "Rerecast.c36_ids_not_consecutive"
   ],
   "note": "finding: ids are bounded by max_region but not consecutive, and max_region counts unused ids"
  },
  {
   "property": "C37",
   "status": "proved",
   "theorems": [
    "Rerecast.c37_border_painted",
    "Rerecast.c37_only_border",
    "Rerecast.c37_border_sides",
    "Rerecast.c37_few_of_small"
   ],
   "note": "finding: the 32768th region id would carry the border flag; the overflow check comes only at 65535"
  },
  {
   "property": "C38",
   "status": "proved",
   "theorems": [
    "Rerecast.c38_terminates",
    "Rerecast.c38_succeeds",
    "Rerecast.c38_max_distance_overflow"
   ],
   "note": ""
  },
  {
   "property": "C39",
   "status": "proved",
   "theorems": [
    "Rerecast.c39_flood_connected"
   ],
   "note": ""
  },
  {
   "property": "C40",
   "status": "proved",
   "theorems": [
    "Rerecast.c40_cyclic_subsequence",
    "Rerecast.c40_terminates",
    "Rerecast.c40_single_position_repeats",
    "Rerecast.c40_edge_limit_overflow"
   ],
   "note": "for contours visiting two positions; a one-position contour is doubled (c40_single_position_repeats); an edge limit above 255 can panic (c40_edge_limit_overflow)"
  },
  {
   "property": "C41",
   "status": "partial",
   "theorems": [
    "Rerecast.c41_changes_kept_partial",
    "Rerecast.c41_violated"
   ],
   "note": "false for area-border changes on a contour that borders no region (c41_violated); proved in all other cases"
  },
  {
   "property": "C42",
   "status": "partial",
   "theorems": [
    "Rerecast.c42_no_zero_segments_partial",
    "Rerecast.c42_violated"
   ],
   "note": "false for three coinciding consecutive vertices (c42_violated); proved when no three coincide"
  },
  {
   "property": "C43",
   "status": "partial",
   "theorems": [
    "Rerecast.c43_outcome_partial",
    "Rerecast.c43_violated"
   ],
   "note": "false: more than max(max_region, 8) contours abort the build (c43_violated); the exact outcome is proved for every well-formed field with edge limit at most 255"
  },
  {
   "property": "C44",
   "status": "proved",
   "theorems": [
    "Rerecast.c44_triangulation_exact",
    "Rerecast.c44_outcomes",
    "Rerecast.c44_convex",
    "Rerecast.c44_panics_on_large_coordinates"
   ],
   "note": "Exactness for every contour of at least 3 vertices whenever triangulation succeeds; outcomes for coordinates up to 32767; strictly convex contours always succeed."
  },
  {
   "property": "C45",
   "status": "proved",
   "theorems": [
    "Rerecast.c45_deduplicated",
    "Rerecast.c45_total",
    "Rerecast.c45_mesh"
   ],
   "note": "Every sequence of insertions; and the vertices of every mesh returned."
  },
  {
   "property": "C46",
   "status": "proved",
   "theorems": [
    "Rerecast.c46_merge",
    "Rerecast.c46_mesh",
    "Rerecast.c46_area"
   ],
   "note": "Every pair of polygons with existing vertices, strict convexity included; and every whole mesh, polygon by polygon, of contours without border vertices or with fewer than 65535 vertices."
  },
  {
   "property": "C47",
   "status": "partial",
   "theorems": [
    "Rerecast.c47_mutual_partial",
    "Rerecast.c47_complete_partial",
    "Rerecast.c47_open_partial"
   ],
   "note": "Guards: at most 65535 polygon sides (edge numbers are u16); no border vertices, or fewer than 65535 contour vertices."
  },
  {
   "property": "C48",
   "status": "partial",
   "theorems": [
    "Rerecast.c48_violated",
    "Rerecast.c48_removal_never_succeeds",
    "Rerecast.c48_outcomes_partial"
   ],
   "note": "Violated: removing a border vertex of a pentagon runs forever; in fact no removal ever succeeds, for any contours. Proved without border vertices to remove."
  },
  {
   "property": "C49",
   "status": "partial",
   "theorems": [
    "Rerecast.c49_regions_violated",
    "Rerecast.c49_tables_partial"
   ],
   "note": "Violated for regions (keeps its allocated length); proved for the other tables (no border vertices, or fewer than 65535 contour vertices)."
  },
  {
   "property": "C50",
   "status": "proved",
   "theorems": [
    "Rerecast.c50_hull_triangulation"
   ],
   "note": "For arbitrary float operations."
  },
  {
   "property": "C51",
   "status": "proved",
   "theorems": [
    "Rerecast.c51_flood_is_fifo"
   ],
   "note": "Equality with a plain queue, for every patch, queue and number of steps."
  },
  {
   "property": "C52",
   "status": "partial",
   "theorems": [
    "Rerecast.c52_violated",
    "Rerecast.c52_succeeds_partial"
   ],
   "note": "Violated for sample distance 0 (panics). Proved for a positive distance, exact allocation, every polygon with spans of its region around it."
  },
  {
   "property": "C53",
   "status": "proved",
   "theorems": [
    "Rerecast.c53_rounding",
    "Rerecast.c53_saturates",
    "Rerecast.c53_outcomes",
    "Rerecast.c53_grid",
    "Rerecast.c53_details"
   ],
   "note": "For settings within 65535 cells, exact arithmetic; c53_saturates shows the limit is needed (a larger agent's height is underestimated)."
  },
  {
   "property": "C54",
   "status": "proved",
   "theorems": [
    "Rerecast.Transmission.c54_mesh",
    "Rerecast.Transmission.c54_mesh_panics",
    "Rerecast.Transmission.c54_image"
   ],
   "note": "For meshes whose built-in attributes have their Bevy formats; otherwise deserialising panics (c54_mesh_panics). Morph targets and custom attributes are not transferred."
  },
  {
   "property": "C55",
   "status": "proved",
   "theorems": [
    "Rerecast.Transmission.c55_payload",
    "Rerecast.Transmission.c55_editor"
   ],
   "note": "For at most 2^32/15 entities (indices are truncated to u32)."
  },
  {
   "property": "C56",
   "status": "partial",
   "theorems": [
    "Rerecast.Generator.c56_queue_partial",
    "Rerecast.Generator.c56_violated"
   ],
   "note": "The queue keeps all requests in order; but nothing ever reads it, so no request is started."
  },
  {
   "property": "C57",
   "status": "proved",
   "theorems": [
    "Rerecast.c57_coverage",
    "Rerecast.c57_mesh_coverage"
   ],
   "note": "exact rational arithmetic; points above the inside of a cell; fields of at most 32767 cells per side (see C59 for larger ones)"
  },
  {
   "property": "C58",
   "status": "partial",
   "theorems": [
    "Rerecast.c58_sound_partial",
    "Rerecast.c58_violated"
   ],
   "note": "false: a triangle reaching below the minimum can mark cells it does not touch (c58_violated); proved when no vertex lies below the minimum in x or z"
  },
  {
   "property": "C59",
   "status": "partial",
   "theorems": [
    "Rerecast.c59_wide_field_ignores_triangles",
    "Rerecast.c59_long_field_aborts",
    "Rerecast.c57_mesh_coverage"
   ],
   "note": "false: fields of 32768 or more cells per side drop triangles (x) or abort (z); for all smaller fields c57_mesh_coverage proves success"
  },
  {
   "property": "C60",
   "status": "proved",
   "theorems": [
    "Rerecast.c60_error_bound",
    "Rerecast.c60_error_bound_split",
    "Rerecast.c60_contours_partial",
    "Rerecast.c60_portal_exception",
    "Rerecast.c60_split_exceeds"
   ],
   "note": "Exact arithmetic. c60_contours_partial carries the bound to the contours build_contours returns. With splitting on the bound is twice max_error, and max_error itself is exceeded in c60_split_exceeds."
  },
  {
   "property": "C61",
   "status": "partial",
   "theorems": [
    "Rerecast.c61_outlines_partial",
    "Rerecast.c61_vertices",
    "Rerecast.c61_small_fields",
    "Rerecast.c61_isolated_skipped",
    "Rerecast.c61_violated"
   ],
   "note": "Complete for rounds of up to 40,000 steps (all fields of up to 10,000 spans): every wall is walked exactly once, with the right vertices. Longer rounds are cut short, and single isolated spans get no outline."
  },
  {
   "property": "C62",
   "status": "proved",
   "theorems": [
    "Rerecast.c62_regions_connected"
   ],
   "note": ""
  },
  {
   "property": "C63",
   "status": "partial",
   "theorems": [
    "Rerecast.c63_complete_partial",
    "Rerecast.c63_nothing_partial",
    "Rerecast.c63_no_gaps_partial",
    "Rerecast.c63_violated"
   ],
   "note": "false when no span lies inside its area, i.e. max_distance is 0 (c63_violated, c63_nothing_partial: then no span gets a region); proved with max_distance at least 1 and ids left: every walkable span outside the border gets a region"
  },
  {
   "property": "C64",
   "status": "partial",
   "theorems": [
    "Rerecast.c64_merging_adds_no_overlap_partial",
    "Rerecast.c64_violated"
   ],
   "note": "False as documented: a spiral ramp becomes one region that overlaps itself. Proved: joining adds no overlap, and a self-overlapping label is never joined with another."
  },
  {
   "property": "C65",
   "status": "partial",
   "theorems": [
    "Rerecast.c65_small_islands_removed",
    "Rerecast.c65_only_small_removed_partial",
    "Rerecast.c65_violated"
   ],
   "note": "Every island below the threshold is removed. Conversely only labels with fewer spans than the threshold are removed, but an enclosed patch of another area is judged apart from its island."
  },
  {
   "property": "C66",
   "status": "proved",
   "theorems": [
    "Rerecast.c66_tables"
   ],
   "note": "Every detail mesh returned, for arbitrary float operations and any allocator; polygons with 3 to 126 corners inside the field."
  },
  {
   "property": "C67",
   "status": "proved",
   "theorems": [
    "Rerecast.c67_triangle_flags"
   ],
   "note": ""
  },
  {
   "property": "C68",
   "status": "partial",
   "theorems": [
    "Rerecast.c68_violated",
    "Rerecast.c68_nearest_height",
    "Rerecast.c68_patch_contents"
   ],
   "note": "Violated for polygons without spans of their region nearby (seeding reads the wrong vertices). Lookup and patch contents proved otherwise."
  },
  {
   "property": "C69",
   "status": "partial",
   "theorems": [
    "Rerecast.c69_violated",
    "Rerecast.c69_storing_partial"
   ],
   "note": "Violated with the doubling allocator of the standard library; proved for exact allocation or output within the estimate."
  },
  {
   "property": "C70",
   "status": "proved",
   "theorems": [
    "Rerecast.c70_error_bound"
   ],
   "note": "For any float operations whose comparisons are an order; the error is as computed by the distance helpers (see C71)."
  },
  {
   "property": "C71",
   "status": "proved",
   "theorems": [
    "Rerecast.c71_distance_plane",
    "Rerecast.c71_distance_space",
    "Rerecast.c71_distance_triangle",
    "Rerecast.c71_distance_polygon",
    "Rerecast.c71_distance_mesh",
    "Rerecast.c71_narrow"
   ],
   "note": "Exact rational arithmetic."
  },
  {
   "property": "C72",
   "status": "proved",
   "theorems": [
    "Rerecast.Transmission.c72_from_mesh",
    "Rerecast.Transmission.c72_out_of_range",
    "Rerecast.Transmission.c72_transfer"
   ],
   "note": ""
  },
  {
   "property": "C73",
   "status": "proved",
   "theorems": [
    "Rerecast.Transmission.c73_gather",
    "Rerecast.Transmission.c73_backend"
   ],
   "note": ""
  },
  {
   "property": "C74",
   "status": "partial",
   "theorems": [
    "Rerecast.Transmission.c74_affector_partial",
    "Rerecast.Transmission.c74_violated"
   ],
   "note": "Vertices and triangles are kept; area types are lost."
  },
  {
   "property": "C75",
   "status": "proved",
   "theorems": [
    "Rerecast.c75_input",
    "Rerecast.c75_skipped",
    "Rerecast.c75_stray_index"
   ],
   "note": "For meshes whose indices refer to their own vertices; c75_stray_index shows that this is needed (an index beyond the vertices of its mesh silently takes one of the next mesh). Exact arithmetic; transforms are arbitrary functions."
  },
  {
   "property": "C76",
   "status": "partial",
   "theorems": [
    "Rerecast.c76_regions_partial",
    "Rerecast.c76_vertices_partial",
    "Rerecast.c76_polygons_partial"
   ],
   "note": "Whole builds, exact arithmetic. Guards: radius up to 127 cells, scene within 32767 cells and 65535 voxels, fewer than 2^32 spans; for polygons also climb below height, at most 62 floors per cell, rounds of up to 40,000 steps, fewer than 65535 vertices."
  },
  {
   "property": "C77",
   "status": "partial",
   "theorems": [
    "Rerecast.c77_margin",
    "Rerecast.c77_violated",
    "Rerecast.c77_coverage_partial"
   ],
   "note": "Violated near the sides of the scene's box; c77_margin tells by how much the navmesh keeps clear.  c77_coverage_partial: elsewhere, ground that is firm around a spot up to the agent's radius (whatever rounding does) gets a region, if minimal regions are below one cell.  Missing: spots where rounding decides, and minimal region sizes; the way from regions to polygons is C92."
  },
  {
   "property": "C78",
   "status": "partial",
   "theorems": [
    "Rerecast.c78_detail_partial",
    "Rerecast.c78_succeeds_partial"
   ],
   "note": "For whole builds with the guards of C76, at most 126 corners per polygon and numbers of samples that fit their types."
  },
  {
   "property": "C79",
   "status": "partial",
   "theorems": [
    "Rerecast.c79_narrow",
    "Rerecast.c79_no_ground",
    "Rerecast.c79_violated",
    "Rerecast.c79_violated_no_ground",
    "Rerecast.c79_violated_hang",
    "Rerecast.c79_solid",
    "Rerecast.c79_regions_partial",
    "Rerecast.c79_outcomes_partial"
   ],
   "note": "Violated: two classes of levels for which no build succeeds, a panic for one of each, and an L-shaped floor for which the build never ends (c79_violated_hang).  For the other levels: c79_solid (heightfield and filters always succeed), c79_regions_partial (regions exist if there are at most 32766 walkable spans, at most 62 above each other), c79_outcomes_partial (the rest returns a navmesh or a triangulation error under the guards listed there)."
  },
  {
   "property": "C80",
   "status": "partial",
   "theorems": [
    "Rerecast.c80_edge_length",
    "Rerecast.c80_edge_length_walk",
    "Rerecast.c80_contours_partial"
   ],
   "note": "Missing: rounds of more than 40,000 steps, which are cut short."
  },
  {
   "property": "C81",
   "status": "partial",
   "theorems": [
    "Rerecast.c81_positions_partial"
   ],
   "note": "Whole builds, exact arithmetic; guards of C76 and C78. Where no height is found within the search radius, the code uses voxel 65535."
  },
  {
   "property": "C82",
   "status": "partial",
   "theorems": [
    "Rerecast.c82_blocks",
    "Rerecast.c82_open_sides"
   ],
   "note": "Missing: contours that pass a position twice, and sets that have both vertices to remove and 65535 or more vertices."
  },
  {
   "property": "C83",
   "status": "partial",
   "theorems": [
    "Rerecast.c83_polygon_sizes_partial",
    "Rerecast.c83_edges_partial",
    "Rerecast.c83_outlines_partial",
    "Rerecast.c83_islands_partial"
   ],
   "note": "Whole builds under the guards of C76; edges need contours without double points, islands at most 32768 regions."
  },
  {
   "property": "C84",
   "status": "partial",
   "theorems": [
    "Rerecast.c84_violated",
    "Rerecast.c84_outcomes_partial",
    "Rerecast.c84_clear_rows_partial"
   ],
   "note": "Violated: with cell size 0.3 a triangle with a corner on a row line overflows a clipping buffer in f32 and the program aborts. Proved for any rounding: it aborts or inserts valid blocks, never an error. Proved in f32: no abort if no vertex is closer than 2^-18 of the scene size to a line between two rows."
  },
  {
   "property": "C85",
   "status": "partial",
   "theorems": [
    "Rerecast.c85_violated",
    "Rerecast.c85_rows_partial",
    "Rerecast.c85_clear_rows_partial"
   ],
   "note": "Violated: if the last row is computed one too large, the clipping buffers of earlier rows are rasterized again; a voxel appears at the world's origin. Proved in f32: the rows are right up to 2^-22; and if no vertex is close to a row line nor below the minimum x, every voxel is near a point of a triangle, up to (cells * scene size) * 2^-20 and one cell in x."
  },
  {
   "property": "C86",
   "status": "partial",
   "theorems": [
    "Rerecast.c86_cover_partial",
    "Rerecast.c86_build_partial",
    "Rerecast.c86_contour_polygon"
   ],
   "note": "Proved in exact arithmetic: a point in a cell of a region is under a polygon of the region (three of its corners have a triangle containing it) if it is more than twice max_error from the region's frontier (no neighbour, or another area) and in no triangle of corners of the border with one other region. The second condition is needed: borders between regions of one area are straightened regardless of max_error. Missing: contours with double points, isolated spans, rounds over 40,000 steps; rounding in the error tests is in C87."
  },
  {
   "property": "C87",
   "status": "partial",
   "theorems": [
    "Rerecast.c87_error_bound",
    "Rerecast.c87_exceeds",
    "Rerecast.c87_contours_partial",
    "Rerecast.c87_cover_partial",
    "Rerecast.c87_outlines_partial",
    "Rerecast.c87_build_partial"
   ],
   "note": "Proved in IEEE single precision: the tolerance is exceeded by at most a 4194304th of it and a 2097152nd of the grid's extent (c87_error_bound, complete for one outline). c87_exceeds shows that max_error itself can be exceeded. For whole fields and builds the guards of C60, C83 and C86 remain."
  },
  {
   "property": "C88",
   "status": "partial",
   "theorems": [
    "Rerecast.c88_violated",
    "Rerecast.c88_rounding_partial",
    "Rerecast.c88_grid",
    "Rerecast.c88_details",
    "Rerecast.buildR_id"
   ],
   "note": "Violated in single precision: with cells of 0.2 an agent of radius and height 0.6 gets three cells, which are less; with cells of 0.1 a climb of 0.7 gets seven cells, which are more. Proved: the shortfall is at most a 16777216th of the setting, and the other bounds of C53 hold exactly."
  },
  {
   "property": "C89",
   "status": "partial",
   "theorems": [
    "Rerecast.c89_violated",
    "Rerecast.c89_large_separate_partial"
   ],
   "note": "Violated: regions that touch no unlabelled place on their outline are joined whatever their size is (two lakes of 50 and 49 cells with the setting 20). Proved: two basins of more than merge_region_area spans whose outlines both come past a side without label are never joined."
  },
  {
   "property": "C90",
   "status": "proved",
   "theorems": [
    "Rerecast.c90_no_gaps"
   ],
   "note": ""
  },
  {
   "property": "C91",
   "status": "partial",
   "theorems": [
    "Rerecast.c91_joined_partial",
    "Rerecast.c91_f32_partial",
    "Rerecast.c91_build_partial"
   ],
   "note": "Proved for any set of regions, in exact arithmetic, in single precision and for builds: a point in a cell of one of them is under a polygon of one of them if it is more than twice max_error (plus rounding) from their frontier (no neighbour or another area) and in no triangle of corners of the line between one of them and one region outside the set. Missing: regions that touch crosswise in a corner, isolated spans, contours with double points, outlines of more than 40,000 steps."
  },
  {
   "property": "C92",
   "status": "partial",
   "theorems": [
    "Rerecast.c92_open_ground_partial",
    "Rerecast.c92_f32_partial"
   ],
   "note": "Proved for whole builds, with the contour tests exact or in single precision (then with the rounding errors added to the distance): a point of the world around which the ground is open (firm up to the agent's radius, firm steps to all sides, no other place to stand) up to twice edge_max_error cells is under a polygon, seen from above. Missing: the guards on the intermediate fields (at most 62 layers, region numbers that do not run out, outlines of at most 40,000 steps without double points, fewer than 65535 vertices, no isolated spans, no regions touching crosswise), and minimal region sizes."
  },
  {
   "property": "C93",
   "status": "partial",
   "theorems": [
    "Rerecast.Visualize.c93_iterator",
    "Rerecast.Visualize.c93_polygons_partial",
    "Rerecast.Visualize.c93_area",
    "Rerecast.Visualize.c93_fills",
    "Rerecast.Visualize.c93_detail",
    "Rerecast.Visualize.c93_build_partial",
    "Rerecast.Visualize.c93_affector"
   ],
   "note": "Proved: the drawing of the polygon mesh is one closed line around each polygon and the fan of each polygon, whose triangles have together the area of the polygon and, if it is strictly convex (C98), fill it without overlap; that of the detail mesh is its triangles. Missing: meshes of contours with vertices to remove and 65535 or more vertices; settings beyond the guards of C78. Placing a vertex in the world is an arbitrary function, so its rounding is not restricted."
  },
  {
   "property": "C94",
   "status": "partial",
   "theorems": [
    "Rerecast.EditorView.c94_boxes",
    "Rerecast.EditorView.c94_navmesh",
    "Rerecast.EditorView.c94_lines_partial",
    "Rerecast.EditorView.c94_visuals_partial",
    "Rerecast.EditorView.c94_affectors_partial",
    "Rerecast.EditorView.c94_violated_lines",
    "Rerecast.EditorView.c94_violated_visuals",
    "Rerecast.EditorView.c94_violated_affectors"
   ],
   "note": "Violated: loading a scene removes the lines of the navmesh still shown, and they do not come back; meshes loaded while their box is unchecked are visible; affectors loaded while their box is checked are not drawn. Proved: boxes and navmesh shown for every history; lines, meshes and affectors if no scene is loaded at such a moment."
  },
  {
   "property": "C95",
   "status": "partial",
   "theorems": [
    "Rerecast.c95_joined_partial",
    "Rerecast.c95_pair_partial"
   ],
   "note": "Proved: a basin of at most merge_region_area spans that could be joined with a region does not stay alone; a region made of two basins was made because one of them is that small or has no open side, they touch in at most one stretch, and every other region it could have been joined with is at least as large. Missing: which basins are joined in regions of three and more, basins whose wall the program does not walk around in 40,000 steps, and basins that touch one which does not touch them back on the wall the program walks along."
  },
  {
   "property": "C96",
   "status": "partial",
   "theorems": [
    "Rerecast.Backend.c96_shape",
    "Rerecast.Backend.c96_editor_partial",
    "Rerecast.Backend.c96_static_only",
    "Rerecast.Backend.c96_backend",
    "Rerecast.Backend.c96_violated"
   ],
   "note": "Proved end to end for shapes and for compounds whose parts are not moved. Violated for compounds with moved parts (c96_violated, the defect of C08): the triangle of a part is not at its pose."
  },
  {
   "property": "C97",
   "status": "partial",
   "theorems": [
    "Rerecast.Camera.c97_cursor",
    "Rerecast.Camera.c97_pitch",
    "Rerecast.Camera.c97_free",
    "Rerecast.Camera.c97_rest",
    "Rerecast.Camera.c97_speed",
    "Rerecast.Camera.c97_move",
    "Rerecast.Camera.c97_look",
    "Rerecast.Camera.c97_slows",
    "Rerecast.Camera.c97_moves_partial",
    "Rerecast.Camera.c97_violated"
   ],
   "note": "All parts proved except the last, which is violated: with the default settings, scrolling down ten lines in one frame makes the speed zero for good (c97_violated); it holds while no frame scrolls down that far (c97_moves_partial). Numbers are exact rationals; rotations are uninterpreted."
  },
  {
   "property": "C98",
   "status": "proved",
   "theorems": [
    "Rerecast.c98_triangulated",
    "Rerecast.c98_triangles",
    "Rerecast.c98_mesh"
   ],
   "note": "Contours that do not touch themselves, clockwise like outer contours, coordinates up to 32767. Contours joined with holes touch themselves along the bridges and are not covered; for them see C44 and C46. c98_mesh: guards of C46."
  },
  {
   "property": "C99",
   "status": "partial",
   "theorems": [
    "Rerecast.c99_ears",
    "Rerecast.c99_shortest_partial",
    "Rerecast.c99_violated"
   ],
   "note": "Violated: squared lengths are truncated to u16, so a rhombus 256 cells wide and 100 deep is cut along its long diagonal. Proved: every triangle is an ear of what is left, with the shortest base after truncation (c99_ears); with the shortest base if no two corners are 256 cells apart (c99_shortest_partial)."
  }
 ]
}