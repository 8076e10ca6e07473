# Formal model of rerecast in Lean 4: design

`/repo` (rerecast, a Rust port of Recast navmesh generation) is modelled, function by function, as total computable Lean
definitions; the properties of `properties.jsonl` are stated as theorems about those definitions.  Nothing in `/repo` was built
or run: it was read as text.

## Layout

| path | content |
| --- | --- |
| `lean/Verif/Model/*.lean` | the model: one definition per Rust function (or loop body), each citing file and lines |
| `lean/Verif/Spec/*.lean`  | small independent specifications used by the theorem statements |
| `lean/Verif/Lemmas/*.lean` | helper lemmas and invariants |
| `lean/Verif/Props/*.lean` | the property theorems, each with a concrete witness of its hypotheses |
| `seeded/LOG.jsonl` | one line per wrong program tried against the theorems |
| `MANIFEST.json` | property -> status and theorem names |

## Modelling conventions

* **Integers.** `u8/u16/u32/usize/i32` values are `Nat`/`Int`.  Where the Rust type bound matters it is either an explicit check
  in the model (below) or an explicit hypothesis of the theorem.  Packed words (`CompactSpan::data`, contour vertex words) are
  `BitVec`.  `usize` is 64 bits.
* **Panics.** The model follows the *debug / overflow-checked* semantics: out-of-range indexing, arithmetic overflow, `unwrap` on
  `None`, `clamp` with min > max and division by zero are the explicit outcome `Fault.panic`; a Rust `Err(e)` is `Fault.err`; a
  loop that runs out of fuel is `Fault.diverge`.  The result monad is `Res α = Except Fault α`.  A theorem that a call returns
  `.ok` therefore says: no overflow, no out-of-range access, no error, termination; in that case release builds (wrapping
  arithmetic) compute the same thing.  Where a release build differs on a panicking input this is not modelled.
* **Mutation** is state passing.  `Vec` is `List`; `SlotMap` is a list of optional slots whose keys are never reused; a `HashMap`
  is an association list.
* **Loops** are folds over the same index sequence; `while` loops are fuel-bounded recursion with `diverge` as the out-of-fuel
  outcome, and termination is then a theorem.
* **Floats.** Said in the comment at each definition: (a) *uninterpreted*: the float computation is a parameter of the model with
  no assumed law (detail mesh: a whole structure `FloatOps F` of uninterpreted operations), so the theorem holds for whatever the
  hardware returns; (b) *order only*: an arbitrary linear order (bounding boxes), which finite `f32`s are; (c) *exact*: rationals,
  rounding ignored (rasterisation, convex volumes, contour error, settings, distance helpers).  Theorems of kind (c) say what
  the algorithm does, not what rounding adds; (d) *rounded*: rationals with every operation rounded to single precision (C84, C85, C87, C88, C90, C102).

## Which code is modelled

| source | modelled | not modelled |
| --- | --- | --- |
| `rerecast/compact_cell.rs`, `compact_span.rs`, `span.rs`, `region.rs` | bit packing, cells, areas, region ids | slot map internals, `with_min_capacity` |
| `math.rs` | direction tables, `next`/`prev`, `Aabb3d::from_verts`, `intersects`, point/line distances | `Aabb3d::new`, `extend_y`; triangle `normal` is uninterpreted but for C103, where it is exact |
| `trimesh.rs` | all | |
| `heightfield.rs` | builder, `add_span`, column access | `populate_from_trimesh` is the loop of `rasterize_triangles`, not repeated |
| `rasterize.rs` | all, twice: with exact arithmetic, and with every operation rounded (`Model/RasterizeRounded.lean`, `Model/Float32.lean`) | infinities and NaN |
| `pre_filter.rs`, `compact_heightfield.rs`, `erosion.rs`, `watershed_distance_field.rs` | all | capacity hints |
| `mark_convex_poly_area.rs` | all, twice: with exact arithmetic, and with every operation rounded (C102) | infinities and NaN |
| `watershed_build_regions.rs` | all | capacity hints |
| `contours.rs` | all, the error tests twice: exact, and with every operation rounded (C87) | |
| `poly_mesh.rs` | all | - |
| `detail_mesh.rs` | all, floats uninterpreted | `i32` overflow of world coordinates beyond 2^31 cells |
| `config.rs` | all, twice: exact, and rounded (C88) | pass-through of `contour_flags` |
| `avian_rerecast` | `collider_to_trimesh.rs` (all shapes, compounds, isometries), the backend in `lib.rs` | meshes of primitive shapes (parry, uninterpreted) |
| `bevy_rerecast_core/backend.rs` | setting a backend | Bevy's registry of systems |
| `bevy_rerecast_core` | `mesh.rs`, `generator.rs` | backend registration |
| `bevy_rerecast_editor_integration` | `brp.rs`, `transmission/*` | serde/bincode/gzip/base64 encoding; HTTP |
| `bevy_rerecast_editor` | `build.rs`, `get_navmesh_input.rs`, `camera/camera_controller.rs` (exact numbers, rotations uninterpreted), `visualization.rs` (what is drawn; the systems and their run conditions under Bevy's rules for change detection, which are assumed and written at the head of `Model/EditorView.lean`) | UI, theme; gizmo rendering |

## Properties: what is modelled and how it is proved

| id | model | proof |
| --- | --- | --- |
| C01, C02 | `CompactSpan` over `BitVec 32` | bit extensionality |
| C03 | direction tables, `next`, `prev` | finite case split for the 4 directions; `Nat.mod` for all n |
| C04 | contour vertex word over `BitVec` | bit extensionality |
| C05 | `TriMesh::extend`, checked `u32` add | induction over index lists |
| C06 | `Aabb3d::from_verts`, linear order | induction over vertices |
| C07 | `mark_walkable_triangles`, slope test uninterpreted | induction |
| C08 | `compound_trimesh`, poses uninterpreted | **violated**: counterexample and what the code does compute |
| C09-C13 | `Heightfield` as arena of linked spans, `add_span` with fuel | refinement arena -> list of spans; list invariants; canonical form of unions of intervals |
| C14, C57-C59 | `rasterize_triangle(s)`, exact | clipping as intersection with half planes, convex hull invariants; C14, C58, C59 **violated** |
| C15-C18 | the three filters on the arena | refinement to per-column list functions |
| C19-C24 | `into_compact` | fold invariants; C22, C23, C24 **violated** at 63 / 256 layers |
| C25-C28 | `erode_walkable_area` | scan-order fold invariants, path induction; C28 **violated** at radius 128 |
| C29-C32 | `build_distance_field` | scan-order bound, averages; C32 **violated** |
| C33 | `mark_convex_poly_area` | fold invariants; **violated** just below the field |
| C34-C39, C62, C63 | `build_regions` | label invariants over flood, expansion and merging; measures; C63 **violated** |
| C40-C43, C60 | contours | index-list invariants with uninterpreted tests; recursion on the gap for the error; C41-C43 **violated** |
| C61 | contour walking | `follow` is a permutation of the sides of a region, so the walk runs once around a cycle; invariant of the main loop: the flags left are the boundary sides not yet walked; every cycle has a side facing direction 0 or 1, at which it is found; **violated** for rounds over 40,000 steps |
| C44-C49 | polygon mesh | telescoping of signed areas; hash chains; edge table; C48, C49 **violated** |
| C50-C52, C66-C69 | detail mesh | combinatorial induction, queue invariant, ring induction; C52, C68, C69 **violated** |
| C53 | settings | floor/ceiling inequalities |
| C54, C55, C72-C74 | transfer to the editor, mesh conversion | round trips; handle lists without repetition; C74 **violated** |
| C56 | request queue | induction over histories; **violated**: nothing serves the queue |
| C64, C65 | region merging | invariants of the region table (counts, floors, connections) through collecting, removing and joining; both **violated** |
| C70, C71 | detail mesh errors, distance helpers | greedy refinement stops only when no sample exceeds the error; exact minimisation |
| C75 | collecting the scene | the list of meshes read, with offsets, equals the scene's triangles |
| C76, C78 | `build_navmesh` | composition of the stages: a world (`Spec/Pipeline.lean`) in which spans are standing places, links are steps, eroded spans have their surroundings in reach, regions are connected, vertices mark spans, polygons stay in one region |
| C80 | contours | the splitting loop stops only when no edge is splittable (`simplify_stages`); sides after the removal of degenerate segments go to the same places |
| C81 | `build_navmesh` | sub-meshes (C66) read in world coordinates with exact arithmetic; heights traced back through the height patch to floors (`Lemmas/PipelineWorld.lean`) |
| C82 | `into_polygon_mesh` | the polygons of a block have the boundary of its ring as a chain (C46); with no double points a side is used at most once per direction, so a side whose reverse is unused is in the ring (`Lemmas/MeshBoundary.lean`) |
| C83 | `build_navmesh`, `ConfigBuilder::build` | settings carried through the stages: C49 (corners), C80 + C82 (edge lengths in world units), C60 (outlines), C64 (small regions read as walks over roomy places, `Lemmas/PipelineIslands.lean`) |
| C84, C85 | `rasterize_triangle(s)` with an arbitrary rounding of every float operation; IEEE single precision as a function on rationals | **violated** in single precision (kernel evaluation); outcome theorem for any rounding by invariants of the buffers, rows by the error bound of single precision (`Lemmas/Float32.lean`); no abort away from the row lines: cut points stay between the ends of their edges (`Lemmas/Float32Cut.lean`), so x stays unimodal along the polygon and the vertex counts stay below seven (`Lemmas/ClipRounded.lean`); every vertex of a clipped polygon stays within a rounding error per cut of the part of the triangle in its row, so that voxels are near the triangle (`Lemmas/RasterRoundedSafe.lean`, `Lemmas/RasterRoundedLoops.lean`) |
| C86 | the chain contours → simplified contours → polygons | winding numbers (`Lemmas/Winding.lean`): all outlines of a region together wind once around each of its cells (`WindingRegion`); simplification keeps the winding number of points that are in no triangle of a simplified section (`WindingSimplify`), clear points are such (`WindingCover`); the polygons have the contour as boundary (C46), so one of them winds around the point |
| C87 | `distance_squared_between_point_and_line_vec2` and the error test of `simplify_contour` with every operation rounded to single precision | only the rounding of the closest point and of the squares matters (any parameter in [0, 1] gives a point of the segment), so the tests keep vertices within a slightly larger tolerance (`Tests.Keeps`); C60, C83, C86 hold for any tests that do |
| C88 | `NavmeshConfigBuilder::build` with rounding | **violated** (kernel evaluation); monotonicity of rounding and exactness on whole numbers for the bounds that stay exact, the error bound of single precision for the others |
| C89 | `merge_and_filter_regions`, `walk_contour` of the regions | **violated** (kernel evaluation of two lakes in a field); the walk around a basin meets the sides without label (induction over the walk), the table entry keeps "none" through all joins, and a join needs a partner that is small or without "none" |
| C90 | as C84 | every cut in single precision keeps the points beyond its uncertainty: each clipped polygon is vertex by vertex within a rounding error per cut of a convex polygon that has the point in its hull (`Lemmas/ClipShadow.lean`); induction over columns, rows and triangles (`Lemmas/RasterRoundedKeep.lean`) |
| C91 | as C86 | the sections of two outlines along a common line start and end at the same corners, so their chords cancel in the sum of the winding numbers of all outlines of the set; what remains is the sum along the outer sides, which is not zero (`Lemmas/SimplifyPortal.lean`, `WindingPortal`, `WindingJoined`, `WindingJoined2`) |
| C92 | `build_navmesh` up to the polygon mesh | C77 (firm ground gets regions, firm steps become links) shows that the frontier of all regions together is far away; by C37 regions end at the border along straight lines; then C91 for the set of all regions, taken back to the coordinates of the world |
| C93 | drawing of meshes in the editor, `polygons()` | fold invariants over the buffers (every index is below the vertices pushed so far); fan area by telescoping |
| C94 | the editor's systems with run conditions as a state machine over histories of events | invariants over histories (time of last change against time of last run of each condition); **violated** around loading of scenes |
| C95 | `merge_and_filter_regions`: the table of regions, the walk along the wall of each, the merge loop | the walk lists the stretches of the wall (induction over the walk); an invariant over merges bounds how often a region lists another by the stretches of their basins, and floors by stacked spans; the loop ends where no merge is left; a pair is traced back to its merge (induction over the chain of merges) |
| C96 | the collider backend, setting of backends, the remote method, composed with C54, C55, C73 | fold of the conversion over the static colliders, composed with the theorems about transmission, fetching and gathering; histories by induction from the right; **violated** for compounds with moved parts (C08) |
| C97 | the camera of the editor as a state machine over frames | invariants over histories of frames; the decay of the velocity as a geometric sequence; **violated**: a speed of zero never recovers |
| C98 | triangulation and polygon mesh of contours that do not touch themselves | winding numbers by crossings of a ray (a discrete Jordan curve theorem: a polygon that does not touch itself goes around every point once or not at all); two ears theorem by cutting along diagonals; the ear tests of the code hold exactly for ears; the flags of the ears stay right while cutting; crossings add up over pieces with the same boundary |
| C99 | the order in which the triangulation cuts ears | flagged positions are exactly the ears (C98); the search keeps the minimum; induction over the cuts; **violated**: lengths are truncated to 16 bits |
| C100 | the triangles of sub-meshes without interior samples | adding points on the sides of a convex polygon keeps it weakly convex and keeps all winding numbers; triangles with corners in the order of a weakly convex polygon are flat or turn the right way; flat ones wind around nothing, the others around their inside; winding numbers of triangles with the boundary of the outline add up to that of the polygon (C98) |
| C101 | the sides of sub-meshes | both polygons walk the side in the same direction (swapEnds), so with equal heights the samples, and hence those kept, are the same numbers; one of them lists them backwards |
| C102 | `mark_convex_poly_area` with every operation rounded (`Model/MarkAreaRounded.lean`) | the crossing of a side with a level is computed up to a millionth of the extent (monotonicity keeps the quotient between 0 and 1); away from the outline the even-odd test is the exact one; rounding is monotone, so the footprint contains all cells that pass |
| C103 | the slope test (`Model/Slope.lean`): cross product, normalisation and cosine in exact reals | the height of a walk on the plane is minus the product of the horizontal parts of walk and normal over the normal's y; by Cauchy-Schwarz the steepest walk is along the normal's horizontal part; its slope is below the tangent exactly if the normal's y is above the cosine |
| C104 | whole builds with every transform followed by the same move (`Spec/Moved.lean`) | the clipping loops of rasterization run on both triangles side by side: every buffer of one is the moved buffer of the other; cell numbers and span heights are differences to the origin and agree; box, slope marks and everything after the heightfield follow |
| C105 | whole builds of two scenes; `Spec/SceneList.lean` lists the triangles of a scene | collecting yields the listed triangles (C05), marking depends on each triangle alone (C07), the box is the smallest that holds the vertices (C06), and rasterization is a fold over triangles with areas |
| C106 | whole builds with every transform followed by an enlargement and with enlarged settings (`Spec/Scaled.lean`) | as C104: sides of cuts keep their signs, cut points are enlarged, cell numbers and voxels are quotients of enlarged lengths; the configuration divides lengths by lengths |
| C107 | whole builds with two settings | the configurations differ in fields that no later stage reads |
| C108 | whole builds of two scenes with the same set of triangles | the insertions of a triangle do not depend on the field; the columns are determined by the voxels they cover; filters and conversion depend on the columns only |
| C77, C79 | `build_navmesh` | same composition read backwards; both **violated** (C77 near the box only: `c77_coverage_partial` follows firm ground through rasterization, filters, erosion and regions; C79 otherwise: the success theorems of all stages composed, `Props/C79_Success.lean`); a whole build evaluated in the kernel as witness (`Lemmas/PipelineExample.lean`) |

Properties found to be violated are kept in full, refuted by a concrete execution of the model (`cNN_violated`), and proved under
the weakest guard found (`_partial`).

## What was found in the code

Refutations (each is a theorem):

* C97 scrolling down ten lines in one frame sets the speed of the editor's camera to zero, and scrolling only multiplies it.
* C102 two area volumes that share a side can both miss a cell whose centre is on the side (`c102_gap`): in `f32` the crossing depends on the direction in which the
  side is listed.
* C103 `walkable_slope_angle` is documented as the maximum slope that is walkable, with 0 allowed, but ground of exactly this slope is not walkable (`c103_limit`); with 0 no build succeeds (`c103_slope_zero`).
* C107 the box of the settings is documented as the field's, but builds take the box of the scene; box, tile size and tiling have no effect (`c107_unused`, `c107_whole_level`).
* C108 with steep triangles the result depends on the order of the objects: walls given before the floor they stand on get walkable tops (`c108_violated`).
* C101 two polygons that meet over a gap in the height field can get different detail vertices on their common side (`c101_seam_over_gap`): heights are searched in
  patches that end one cell beyond the box of the polygon.
* C99 the triangulation compares squared lengths truncated to `u16` (`length_squared() as u16`, poly_mesh.rs:1061): from 256 cells on, a longer cut can be taken for a shorter one.
* C08 the pose of a child shape is applied to the children accumulated before it, not to itself; a single child's pose is ignored.
* C14 a field 65535 voxels tall aborts (`clamp` with min > max).  C59 width >= 32768 drops triangles, depth >= 32768 aborts.
* C84 with the default cell size 0.3 an ordinary triangle with an edge on a grid line overflows the seven slots of a clipping buffer in
  single precision and aborts.  C85 if the last row is rounded up, `divide_poly` returns early and the buffers of earlier rows, or zeros, are
  rasterised again: voxels appear at the origin of the world.
* C88 in single precision 0.6 / 0.2 rounds to 3 though 0.6 is larger than 3 times 0.2: agent radius and height are under-estimated; 0.7 / 0.1
  rounds to 7 though 0.7 is smaller: climb is over-estimated.  C87 the contour tolerance can be exceeded by rounding, by less than a 2097152nd of
  the extent of the grid.
* C58 a triangle reaching below the minimum in x or z marks cells it does not touch.
* C22/C23/C24 the 63rd layer of a cell is dropped without an error; 256 walkable spans in a column panic.
* C28 an erosion radius of 128 wraps to 0.  C32 a field without spans panics.
* C33 a volume ending less than one cell height below the field relabels ground spans (truncation towards zero).
* C61 the walk around a region stops after 40,000 steps: around a row of 20,001 cells the outline is an open line.  A region of
  one isolated span gets no contour.
* C63 if max_distance is 0 (all areas at most two cells wide) no span gets a region; with max_distance >= 1 all do.  C64 a spiral ramp becomes one region lying above itself.  C65 a small patch of
  another area enclosed in a large island is removed as if it were an island of its own.
* C89 a region surrounded by other regions is joined with a neighbour of the same area whatever its size; `merge_region_area` does not limit it.
* C41 area-border changes on an outline that borders no region are not kept.  C42 three coinciding vertices leave a zero-length
  segment.  C60 splitting a long edge can push the error up to twice `max_error`.  C43 more than max(max_region, 8) contours abort the build.
* C48 removing a border vertex never succeeds: the sides of a polygon are enumerated as pairs (j, nv-1+j) instead of (j, j-1), so
  all but the first refer to the padding `0xFFFF`, and the loop over the edges of the hole advances only after a match.
  `c48_removal_never_succeeds`: if a mesh is returned, no vertex was removed; `c48_violated`: a pentagon for which it hangs.  C49 `regions` keeps its allocated length.
* C52 sample distance 0 panics, and the settings give 0 for any distance below 0.9.  C68 seeding from the polygon's centre reads
  the detail vertex buffer instead of the polygon.  C69 the reservation for detail vertices underflows with a doubling allocator.
* C53 heights above 65535 cells saturate (underestimated); a radius above 65532 cells panics.
* C54 a custom attribute with a built-in id and another format makes the editor panic; C72 so do indices out of range when
  marking.  C74 area types are lost on the way to the editor.  C56 nothing reads the queue of requests.
* C94 loading a scene clears the lines of the navmesh, which stays shown, and nothing draws them again; meshes of the new scene are visible
  though unchecked, and its affectors are not drawn though checked, until the box is clicked.
* C77 the border of the grid lies over the scene, so the navmesh ends the agent's radius and three cells before the sides of the
  level's box.  C79 levels without walkable ground and levels narrower than twice that margin panic; the build of an L-shaped
  floor with minimal region size 0 never ends (`c79_violated_hang`).  C75 an index beyond the vertices
  of its mesh silently takes a vertex of the next mesh.

Noticed while modelling, visible in the model or in guards of theorems:

* `heightfield.rs`: `column_index` does not check x, so x >= width addresses the next row.
* `into_compact`, regions: region ids >= 0x8000 look like border ids (guard in C37); `nreg` and `max_distance` overflow at 65535
  (`c38_max_distance_overflow`); `src_dist + 2` overflows on corridors of about 32767 cells; `max_region` over-counts and ids are
  not consecutive (`c36_ids_not_consecutive`); spans of removed regions keep their area although documented as unwalkable.
* Contours: an edge limit of 256 or more overflows (`c40_edge_limit_overflow`); outlines are cut at 40,000 steps; isolated single
  cells of a region get no outline; the splitting test uses `length_squared() as u16`.
* Polygon mesh: coordinates above 32767 overflow `i32` products (`c44_panics_on_large_coordinates`); edge numbers are `u16`
  (guards of C47); unused edge entries count as open in `can_remove_vertex`; `i -= 1` underflows for vertex 0; portal values
  `0x8000 | k` coincide with polygon indices >= 0x8000.
* Detail mesh: `xmax + 1` overflows at coordinate 65535; ground at y = 65535 equals the unset marker; unset heights are used as
  65535; the sample grid coordinates are truncated to `u16`; a squared distance is compared with a linear one when samples near
  the polygon's sides are skipped.
* Editor: morph targets and custom attributes are not transferred; images of a material that fails are still sent.

## Partial properties: what is missing

Each `_partial` theorem states its guard; the guards are necessary where a `_violated` theorem is listed beside it in
`MANIFEST.json`.  C47 has a guard without a refutation: at most 65535 polygon sides (edge numbers wrap beyond).

## Trusted base

* Lean 4.33.0's kernel.
* The axioms `propext`, `Classical.choice` and `Quot.sound`: every theorem of the manifest depends on a subset of these three
  (checked with `#print axioms`, table below).  No axioms are added, no `sorry`, no `native_decide`, no `bv_decide`.
* The correspondence between `/repo` and `lean/Verif/Model`: checked by reading, cited per definition, simplifications named in
  the comments and summarised above.
* `decide` and `decide +kernel` are used only for concrete witnesses and finite case splits; both are checked by the kernel.

### Axioms per theorem

| axioms | theorems |
| --- | --- |
| Classical.choice, Quot.sound, propext | c01_connection_roundtrip, c04_vertex_word, c04_final_word, c05_extend, c05_extend_sequence, c07_mark_walkable, c07_idempotent, c08_compound_partial, c08_later_poses, c09_columns_sorted, c09_no_leak_no_sharing, c10_occupied_iff_inserted, c100_fills, c100_contours, c101_no_seams, c101_told_apart, c101_one_layer, sideVertices_exist, c101_seam_over_gap, c101_seam_input, c102_marks, c102_gap, c102_unrounded, c103_slope, c103_monotone, c103_ramps, c103_limit, c103_level, c103_vertices, c103_slope_zero, c104_moved, c104_same_mesh, c104_both, c104_positions, c104_triangle, c104_slope, c105_same_box, c105_same_triangles, c105_no_stray, c105_unreadable, c106_scaled, c106_same_mesh, c106_both, c106_settings, c106_positions, c106_triangle, c106_slope, c107_unused, c107_box, c107_whole_level, c108_triangle_set_partial, c108_object_order_partial, c108_violated, c11_order_independent, c12_frame, c13_merge_rule, c13_area_requested, c14_snap_partial, c14_violated, c15_filters_keep_geometry, c09_reachable_wellformed, c16_low_hanging, c16_not_idempotent, c17_ledge_verdict, c17_ledge_idempotent, c18_head_room, c18_idempotent, c19_exactly_the_walkable_spans, c20_wellformed, c21_connections_sound, c22_connections_complete_partial, c22_connection_exact_partial, c22_violated, c23_connections_symmetric_partial, c24_outcome, c24_succeeds_partial, c24_violated_panic, c25_only_removes, c25_radius_zero, c25_outcome, c26_clearance, c27_removed_is_near_edge, c27_edges_removed, c28_monotone_partial, c28_violated, c29_no_panic, c30_raw_distances, c30_clearance, c31_bounded_by_max, c31_smoothing, c32_succeeds_iff_partial, c32_violated, c32_empty_panics, c33_marks_exactly_partial, c33_idempotent, c33_violated, c34_regions_only_on_walkable, ready_of_distance_field, c35_regions_uniform, c36_ids_bounded, c36_ids_not_consecutive, c37_border_painted, c37_only_border, c37_border_sides, c37_few_of_small, c38_terminates, c38_succeeds, c39_flood_connected, c40_cyclic_subsequence, c40_terminates, c40_single_position_repeats, c40_edge_limit_overflow, c41_changes_kept_partial, c41_violated, c42_no_zero_segments_partial, c43_outcome_partial, c43_violated, c44_triangulation_exact, c44_outcomes, c44_convex, c45_deduplicated, c45_total, c45_mesh, c46_merge, c46_mesh, c46_area, c47_mutual_partial, c47_complete_partial, c47_open_partial, c48_removal_never_succeeds, c48_outcomes_partial, c49_tables_partial, c50_hull_triangulation, c52_violated, c52_succeeds_partial, c53_rounding, c53_saturates, c53_outcomes, c53_grid, c53_details, Transmission.c55_payload, Transmission.c55_editor, Generator.c56_queue_partial, Generator.c56_violated, c57_coverage, c57_mesh_coverage, c58_sound_partial, c58_violated, c59_wide_field_ignores_triangles, c59_long_field_aborts, c60_error_bound, c60_error_bound_split, c60_contours_partial, c60_portal_exception, c60_split_exceeds, c61_outlines_partial, c61_vertices, c61_small_fields, c61_isolated_skipped, c61_violated, c62_regions_connected, c63_complete_partial, c63_nothing_partial, c63_no_gaps_partial, c63_violated, c64_merging_adds_no_overlap_partial, c64_violated, c65_small_islands_removed, c65_only_small_removed_partial, c65_violated, c66_tables, c67_triangle_flags, c68_violated, c68_nearest_height, c68_patch_contents, c69_storing_partial, c70_error_bound, c71_distance_plane, c71_distance_space, c71_distance_triangle, c71_distance_polygon, c71_distance_mesh, c71_narrow, Transmission.c73_gather, c75_input, c75_skipped, c75_stray_index, c76_regions_partial, c76_vertices_partial, c76_polygons_partial, c77_margin, c77_violated, c77_coverage_partial, c78_detail_partial, c78_succeeds_partial, c79_narrow, c79_no_ground, c79_violated, c79_violated_no_ground, c79_violated_hang, c79_solid, c79_regions_partial, c79_outcomes_partial, c80_edge_length, c80_edge_length_walk, c80_contours_partial, c81_positions_partial, c82_blocks, c82_open_sides, c83_polygon_sizes_partial, c83_edges_partial, c83_outlines_partial, c83_islands_partial, c84_violated, c84_outcomes_partial, c84_clear_rows_partial, c85_violated, c85_rows_partial, c85_clear_rows_partial, c86_cover_partial, c86_build_partial, c86_contour_polygon, c87_error_bound, c87_exceeds, c87_contours_partial, c87_cover_partial, c87_outlines_partial, c87_build_partial, c88_violated, c88_rounding_partial, c88_grid, c88_details, buildR_id, c89_violated, c89_large_separate_partial, c90_no_gaps, c91_joined_partial, c91_f32_partial, c91_build_partial, c92_open_ground_partial, c92_f32_partial, Visualize.c93_polygons_partial, Visualize.c93_area, Visualize.c93_fills, Visualize.c93_detail, Visualize.c93_build_partial, EditorView.c94_navmesh, EditorView.c94_lines_partial, EditorView.c94_visuals_partial, EditorView.c94_affectors_partial, c95_joined_partial, c95_pair_partial, Backend.c96_editor_partial, Camera.c97_cursor, Camera.c97_pitch, Camera.c97_free, Camera.c97_rest, Camera.c97_speed, Camera.c97_move, Camera.c97_look, Camera.c97_slows, Camera.c97_moves_partial, Camera.c97_violated, c98_triangulated, c98_triangles, c98_mesh, c99_ears, c99_shortest_partial, c99_violated |
| Quot.sound, propext | c01_connection_range, c02_height_roundtrip, c03_next_prev, c06_aabb_exact, c38_max_distance_overflow, c51_flood_is_fifo, Transmission.c54_mesh, Transmission.c72_from_mesh, Transmission.c72_transfer, Transmission.c74_affector_partial, Visualize.c93_iterator, Visualize.c93_affector, EditorView.c94_boxes, EditorView.c94_violated_lines, Backend.c96_static_only, Backend.c96_backend |
| none | c03_directions, c03_documented_offsets, c08_single_child_pose_ignored, Transmission.c54_mesh_panics, Transmission.c54_image, c69_violated, EditorView.c94_violated_visuals, EditorView.c94_violated_affectors |
| propext | c03_lookup_inverse, c08_violated, c11_areas_do_depend_on_order, c42_violated, c44_panics_on_large_coordinates, c48_violated, c49_regions_violated, Transmission.c72_out_of_range, Transmission.c73_backend, Transmission.c74_violated, Backend.c96_shape, Backend.c96_violated |

