{"id": "C01", "title": "Compact span: connection slots round-trip and are independent", "statement": "Writing a neighbour layer index (0..=62, or None) into one of the four direction slots of a compact span and reading the slot back returns exactly what was written; the other three directions, the stored height, the floor y and the region are unchanged.", "quantifier": "every 32-bit packed word, every direction 0..3, every storable neighbour value", "why_tests_cant": "2^32 packed words x 64 values x 4 directions; unit tests touch a handful of words.", "anchors": ["crates/rerecast/src/compact_span.rs: CompactSpan::set_con, con"]}
{"id": "C02", "title": "Compact span: height round-trips and does not disturb connections", "statement": "Writing a height 0..=255 into a compact span and reading it back returns it, and leaves all four connection slots, y and region unchanged; writing connections never changes the height.", "quantifier": "every 32-bit packed word and every u8 height", "why_tests_cant": "same as C01", "anchors": ["crates/rerecast/src/compact_span.rs: CompactSpan::set_height, height"]}
{"id": "C03", "title": "Direction tables are consistent", "statement": "The four directions move by one cell along one axis, direction d+2 undoes direction d, the offset-to-direction lookup inverts the direction-to-offset tables on the four unit offsets, and cyclic next/prev are inverse on every non-empty index range.", "quantifier": "every direction; every cycle length n>=1 and index i<n", "why_tests_cant": "next/prev must be inverse for every polygon size, not only tested ones", "anchors": ["crates/rerecast/src/math.rs: dir_offset_x, dir_offset_z, dir_offset, next, prev"]}
{"id": "C04", "title": "Contour vertex region word: region id and flags do not interfere", "statement": "Packing a 16-bit region id with border-vertex / area-border flags into the contour vertex word loses nothing: the region id read back is the one written, whatever flags are set.", "quantifier": "every 16-bit region id, every flag combination", "why_tests_cant": "65536 ids x flags x 2^32 words", "anchors": ["crates/rerecast/src/contours.rs: RegionVertexId", "crates/rerecast/src/region.rs: RegionId"]}
{"id": "C05", "title": "TriMesh::extend concatenates without corrupting either mesh", "statement": "Extending mesh A by mesh B keeps A's vertices, triangles and areas; each triangle of B appears after them and refers to vertices with exactly B's coordinates; if both meshes only use in-range indices and have one area per triangle, so does the result.", "quantifier": "all pairs (and, by iteration, all sequences) of meshes whose total vertex count fits u32", "why_tests_cant": "arbitrary mesh sizes", "anchors": ["crates/rerecast/src/trimesh.rs: TriMesh::extend"]}
{"id": "C06", "title": "Mesh bounding box is exact", "statement": "compute_aabb returns None exactly for a mesh with no vertices; otherwise every vertex lies inside the box and every face of the box is touched by some vertex (it is the smallest box).", "quantifier": "every list of vertices (totally ordered coordinates, i.e. no NaN)", "why_tests_cant": "unbounded vertex lists", "anchors": ["crates/rerecast/src/trimesh.rs: TriMesh::compute_aabb", "crates/rerecast/src/math.rs: Aabb3d::from_verts"]}
{"id": "C07", "title": "Slope marking only upgrades areas of gentle triangles", "statement": "mark_walkable_triangles sets the default walkable area on exactly the triangles whose normal is up enough and leaves every other triangle's area, and all vertices and indices, unchanged; running it twice is the same as once.", "quantifier": "every mesh and every slope predicate", "why_tests_cant": "unbounded triangle lists", "anchors": ["crates/rerecast/src/trimesh.rs: TriMesh::mark_walkable_triangles"]}
{"id": "C08", "title": "Compound collider conversion places every child shape at its own pose", "statement": "Converting a compound collider yields the concatenation of the child meshes, each transformed by that child's own pose.", "quantifier": "every list of (pose, child shape)", "why_tests_cant": "every number of children and every pose", "anchors": ["crates/avian_rerecast/src/collider_to_trimesh.rs: compound_trimesh"]}
{"id": "C09", "title": "Heightfield columns stay sorted, separated and well linked", "statement": "After any sequence of span insertions into an empty heightfield, walking any column from its head terminates and yields spans in strictly ascending order with a gap between consecutive spans (max < next min); no span is shared between columns, dangling, or leaked.", "quantifier": "every grid size and every finite history of insertions with min<=max", "why_tests_cant": "invariant over unbounded insertion histories on a linked structure with deletions", "anchors": ["crates/rerecast/src/heightfield.rs: Heightfield::add_span, allocate_span, span_key_at"]}
{"id": "C10", "title": "Heightfield columns cover exactly the union of inserted spans", "statement": "After any sequence of insertions, a voxel of a column is solid if and only if some inserted span of that column contained it: merging neither invents nor loses solid space.", "quantifier": "every finite history of insertions with min<max, every voxel height", "why_tests_cant": "merging of overlapping/touching intervals in any order", "anchors": ["crates/rerecast/src/heightfield.rs: Heightfield::add_span"]}
{"id": "C11", "title": "Solid geometry does not depend on insertion order", "statement": "Inserting the same collection of spans in any two orders (and with any merge thresholds) yields columns with identical min/max sequences.", "quantifier": "all permutations of all insertion histories", "why_tests_cant": "factorially many orders", "anchors": ["crates/rerecast/src/heightfield.rs: Heightfield::add_span"]}
{"id": "C12", "title": "Insertion touches only its own column and rejects bad columns", "statement": "An insertion changes only the addressed column; an insertion at a column index outside the grid returns an error and leaves the heightfield unchanged.", "quantifier": "every reachable heightfield, every (x,z), every span", "why_tests_cant": "frame property over all other columns", "anchors": ["crates/rerecast/src/heightfield.rs: Heightfield::add_span, column_index"]}
{"id": "C13", "title": "Area of a merged span is decided by the documented threshold rule", "statement": "After inserting a span, the resulting span containing it has the area that is the maximum of the new area and the areas of exactly those absorbed spans whose top is within the merge threshold of the running top; in particular the area is always one of the contributing areas and never less than the new one.", "quantifier": "every sorted column, every new span, every threshold", "why_tests_cant": "arbitrarily many spans can be absorbed by one insertion", "anchors": ["crates/rerecast/src/heightfield.rs: Heightfield::add_span"]}
{"id": "C14", "title": "Rasterised heights are in range and non-empty", "statement": "The vertical snapping of a clipped polygon gives a span with 0 <= min < max <= 65535 and containing the requested voxel range whenever that range lies in the representable range, for every height; it never aborts.", "quantifier": "every pair of snapped integer heights", "why_tests_cant": "2^64 pairs of inputs incl. saturation edges", "anchors": ["crates/rerecast/src/rasterize.rs: Heightfield::rasterize_triangle"]}
{"id": "C15", "title": "Filters never alter geometry", "statement": "The three heightfield filters never change the min, max, order or number of spans of any column, only their area.", "quantifier": "every well-formed heightfield and every filter parameter", "why_tests_cant": "all heightfields", "anchors": ["crates/rerecast/src/pre_filter.rs: filter_low_hanging_walkable_obstacles, filter_ledge_spans, filter_walkable_low_height_spans"]}
{"id": "C16", "title": "Low-hanging obstacle filter does exactly what it documents", "statement": "A span changes iff it is unwalkable, the span directly below it was walkable before the filter ran, and its top is at most walkable_climb above that span's top; it then takes the (current) area of the span below. Walkable spans are never changed.", "quantifier": "every column of every well-formed heightfield, every climb", "why_tests_cant": "chains of stacked obstacles of any length", "anchors": ["crates/rerecast/src/pre_filter.rs: filter_low_hanging_walkable_obstacles"]}
{"id": "C17", "title": "Ledge filter is order-independent and only removes walkability", "statement": "The ledge filter leaves each span's area unchanged or makes it unwalkable, and the verdict for each span depends only on the geometry before the filter ran (so it equals an independent per-span test); it is idempotent.", "quantifier": "every well-formed heightfield, all climb/height values", "why_tests_cant": "in-place update across all columns in scan order", "anchors": ["crates/rerecast/src/pre_filter.rs: filter_ledge_spans"]}
{"id": "C18", "title": "After the low-height filter every walkable span has head room", "statement": "After filter_walkable_low_height_spans(h), a span is walkable iff it was walkable before and the gap to the next span above in its column (or to the top of the representable range) is at least h.", "quantifier": "every well-formed heightfield, every h", "why_tests_cant": "all columns of all lengths", "anchors": ["crates/rerecast/src/pre_filter.rs: filter_walkable_low_height_spans"]}
{"id": "C19", "title": "Compact heightfield holds exactly the walkable spans, in order", "statement": "into_compact keeps, for each column, exactly its walkable spans in ascending order: the compact span's floor is the span's top, its clearance is the gap to the next solid span (capped at 255), its area is the span's area.", "quantifier": "every well-formed heightfield with at most 255 walkable spans per column", "why_tests_cant": "all heightfields", "anchors": ["crates/rerecast/src/compact_heightfield.rs: Heightfield::into_compact, build_compact_spans"]}
{"id": "C20", "title": "Cell ranges partition the span array", "statement": "In the compact heightfield, the index ranges of the cells are pairwise disjoint, in range, and together cover every span exactly once in column order; one area exists per span.", "quantifier": "every well-formed heightfield", "why_tests_cant": "all grid sizes", "anchors": ["crates/rerecast/src/compact_heightfield.rs: Heightfield::into_compact"]}
{"id": "C21", "title": "Neighbour connections are sound", "statement": "If a compact span reports a neighbour in a direction, the neighbouring cell exists, the neighbour is one of its spans, the shared vertical opening is at least walkable_height and the step between floors is at most walkable_climb.", "quantifier": "every compact heightfield returned Ok, every span and direction", "why_tests_cant": "all pairs of adjacent columns with any number of layers", "anchors": ["crates/rerecast/src/compact_heightfield.rs: build_connections"]}
{"id": "C22", "title": "Neighbour connections are complete", "statement": "If some span of the adjacent cell has a shared opening >= walkable_height and floor step <= walkable_climb, then the span is connected in that direction, to the lowest such span.", "quantifier": "every compact heightfield returned Ok", "why_tests_cant": "all pairs of adjacent columns with any number of layers", "anchors": ["crates/rerecast/src/compact_heightfield.rs: build_connections"]}
{"id": "C23", "title": "Neighbour connections are symmetric", "statement": "If walkable_climb < walkable_height, then span A connects to B in direction d iff B connects to A in the opposite direction.", "quantifier": "every compact heightfield returned Ok", "why_tests_cant": "all adjacent column pairs", "anchors": ["crates/rerecast/src/compact_heightfield.rs: build_connections"]}
{"id": "C24", "title": "Too many layers is reported, never silently dropped or a crash", "statement": "into_compact returns TooManyLayers if some required connection cannot be represented (layer index over the storable maximum) and otherwise succeeds; it never panics.", "quantifier": "every well-formed heightfield", "why_tests_cant": "columns with 63 or more layers", "anchors": ["crates/rerecast/src/compact_heightfield.rs: into_compact, CompactHeightfieldError"]}
{"id": "C25", "title": "Erosion only removes walkability", "statement": "erode_walkable_area changes each area to unwalkable or leaves it; spans, cells and connections are untouched; radius 0 changes nothing.", "quantifier": "every well-formed compact heightfield and every radius", "why_tests_cant": "all fields", "anchors": ["crates/rerecast/src/erosion.rs: erode_walkable_area"]}
{"id": "C26", "title": "Erosion keeps the agent radius clear", "statement": "After eroding by r (at most 127), around every span that is still walkable every cell whose chamfer distance (2 per axis step, 3 per diagonal step) is at most 2r, in particular every cell up to r steps away along an axis, is inside the field and holds a span that can be reached over reported neighbours, every span met on the way having been walkable before the erosion.", "quantifier": "every well-formed compact heightfield, every r in range, every surviving span, every cell offset within that distance", "why_tests_cant": "all fields and all walks", "anchors": ["crates/rerecast/src/erosion.rs: erode_walkable_area"]}
{"id": "C27", "title": "Erosion removes only spans close to an edge", "statement": "Every walkable span that erosion by r (r<=127) makes unwalkable is linked by connections (axis steps costing 2, diagonal steps costing 3) to an original edge span (unwalkable, or missing a walkable neighbour) with total cost < 2r.", "quantifier": "every well-formed compact heightfield, r<=127", "why_tests_cant": "all fields", "anchors": ["crates/rerecast/src/erosion.rs: erode_walkable_area"]}
{"id": "C28", "title": "Erosion is monotone in the radius", "statement": "Eroding by a larger radius never leaves a span walkable that a smaller radius removed.", "quantifier": "every well-formed compact heightfield, every pair of u16 radii", "why_tests_cant": "all radii pairs; wrap-around at the 8-bit boundary", "anchors": ["crates/rerecast/src/erosion.rs: erode_walkable_area"]}
{"id": "C29", "title": "Distance field construction never overflows or goes out of range", "statement": "build_distance_field on a well-formed compact heightfield with at least one span and at most 32767 cells along one of the two axes performs no arithmetic overflow and no out-of-range access, and changes only dist and max_distance.", "quantifier": "every such field", "why_tests_cant": "u16::MAX sentinel plus addition must never be read", "anchors": ["crates/rerecast/src/watershed_distance_field.rs: build_distance_field, calculate_distance_field, box_blur"]}
{"id": "C30", "title": "Raw distance values are witnessed and zero exactly at region edges", "statement": "Before smoothing, a span has distance 0 iff it lacks a same-area neighbour in some direction; any other value v is the cost of a route over reported neighbours (2 per axis step, 3 per diagonal) to such an edge span, and every cell within chamfer cost v of the span holds a span reachable through spans of the same area.", "quantifier": "every well-formed field", "why_tests_cant": "all fields", "anchors": ["crates/rerecast/src/watershed_distance_field.rs: calculate_distance_field"]}
{"id": "C31", "title": "Smoothed distances never exceed the reported maximum", "statement": "After build_distance_field there is one stored distance per span, no stored distance exceeds max_distance, a stored distance is 0 exactly at area edges, and larger distances are the rounded mean over the 3x3 neighbourhood.", "quantifier": "every well-formed non-empty field", "why_tests_cant": "all fields", "anchors": ["crates/rerecast/src/watershed_distance_field.rs: box_blur, build_distance_field"]}
{"id": "C32", "title": "A field with no walkable span still gets a distance field", "statement": "build_distance_field succeeds on every well-formed compact heightfield, including one with no spans.", "quantifier": "every well-formed field", "why_tests_cant": "edge case of empty input", "anchors": ["crates/rerecast/src/watershed_distance_field.rs: build_distance_field"]}
{"id": "C33", "title": "Area volumes only relabel walkable spans inside them", "statement": "mark_convex_poly_area changes only spans that are walkable, within the volume's vertical range and whose cell centre is inside the polygon, sets exactly those to the volume's area, and leaves all else unchanged; applying it twice is the same as once when the volume's area is walkable.", "quantifier": "every field, every polygon and every height range", "why_tests_cant": "all polygons", "anchors": ["crates/rerecast/src/mark_convex_poly_area.rs: CompactHeightfield::mark_convex_poly_area, point_in_poly"]}
{"id": "C34", "title": "Unwalkable spans never receive a region", "statement": "After build_regions, every span with a region id (border or not) is walkable, and nothing but border_size, max_region and the regions of the spans has changed.", "quantifier": "every well-formed field, all parameters", "why_tests_cant": "watershed flooding over any number of levels and regions", "anchors": ["crates/rerecast/src/watershed_build_regions.rs: build_regions, flood_region, expand_regions, merge_and_filter_regions"]}
{"id": "C35", "title": "Regions are uniform in area type", "statement": "After build_regions, any two spans with the same non-border region id have the same area type.", "quantifier": "every well-formed field, all parameters", "why_tests_cant": "flooding, expanding, and merging in any order", "anchors": ["crates/rerecast/src/watershed_build_regions.rs: flood_region, expand_regions, merge_and_filter_regions"]}
{"id": "C36", "title": "Region ids are bounded by max_region and distinct from border ids", "statement": "After build_regions, every span's region id is none, a border id, or between 1 and max_region, and max_region itself does not carry the border flag.", "quantifier": "every well-formed field with a distance field, all parameters", "why_tests_cant": "id compression over all regions", "anchors": ["crates/rerecast/src/watershed_build_regions.rs: merge_and_filter_regions"]}
{"id": "C37", "title": "Borders are painted with border regions and stay so", "statement": "With a border of b cells, after build_regions every walkable span in the outer b rows/columns has a border-flagged region id, and (if the labelling used fewer than 32768 ids) no other span does; the id then tells at which of the four sides of the grid the span is.", "quantifier": "every well-formed field with a distance field, all border sizes", "why_tests_cant": "all fields", "anchors": ["crates/rerecast/src/watershed_build_regions.rs: build_regions, paint_rect_region"]}
{"id": "C38", "title": "Region building terminates", "statement": "build_regions returns (successfully or with an error) on every well-formed field: no phase can loop forever; and it succeeds on every field of at most 32766 spans whose maximum distance is below 65535.", "quantifier": "every well-formed field, all parameters", "why_tests_cant": "termination is not observable by finite tests", "anchors": ["crates/rerecast/src/watershed_build_regions.rs"]}
{"id": "C39", "title": "Each flooded region is connected", "statement": "Immediately after one region has been flooded from a seed, every span holding the new id is joined to the seed by connections through spans of that id.", "quantifier": "every well-formed field, level and seed", "why_tests_cant": "flood order and rollback of conflicting spans", "anchors": ["crates/rerecast/src/watershed_build_regions.rs: flood_region"]}
{"id": "C40", "title": "Contour simplification keeps a cyclic subsequence of the raw outline", "statement": "Contour simplification only ever keeps vertices of the raw contour, in their original cyclic order and without repetition, and terminates, whatever the distance tests say.", "quantifier": "every raw contour that visits at least two positions, every outcome of the (floating-point) deviation tests", "why_tests_cant": "all contours and all float results", "anchors": ["crates/rerecast/src/contours.rs: simplify_contour"]}
{"id": "C41", "title": "Every region-change vertex survives simplification", "statement": "Each raw vertex at which the neighbouring region (or area border flag) changes is in the simplified contour.", "quantifier": "every raw contour, every outcome of the deviation tests", "why_tests_cant": "all contours", "anchors": ["crates/rerecast/src/contours.rs: simplify_contour"]}
{"id": "C42", "title": "Simplified contours have no zero-length segments", "statement": "After remove_degenerate_segments no two cyclically adjacent vertices have the same x and z.", "quantifier": "every contour", "why_tests_cant": "arbitrarily long runs of repeated points", "anchors": ["crates/rerecast/src/contours.rs: remove_degenerate_segments"]}
{"id": "C43", "title": "build_contours never aborts for having many contours", "statement": "build_contours returns a contour set for every region-labelled field, however many contours a region has.", "quantifier": "every region-labelled field", "why_tests_cant": "number of contours is unbounded", "anchors": ["crates/rerecast/src/contours.rs: build_contours"]}
{"id": "C44", "title": "Polygon triangulation is exact", "statement": "When triangulating an n-vertex contour succeeds, it yields exactly n-2 triangles over the contour's own vertices whose signed areas add up to the contour's signed area.", "quantifier": "every contour of any size", "why_tests_cant": "all polygons, convex or not", "anchors": ["crates/rerecast/src/poly_mesh.rs: triangulate"]}
{"id": "C45", "title": "Mesh vertices are deduplicated exactly within tolerance", "statement": "Adding a vertex returns an index of a stored vertex with the same x and z and y within 2; two distinct stored vertices never have equal x, z and y within 2; existing vertices are unchanged.", "quantifier": "every sequence of vertex insertions", "why_tests_cant": "hash chains of any length", "anchors": ["crates/rerecast/src/poly_mesh.rs: add_vertex, compute_vertex_hash"]}
{"id": "C46", "title": "Polygon merging preserves area and respects the vertex limit", "statement": "Merging two polygons along a shared edge yields na+nb-2 <= max_vertices_per_polygon vertices, and for oppositely oriented shared edges the signed area is the sum of the two; and if both polygons are strictly convex (any three corners, in order, turn the same way), so is the result.", "quantifier": "every pair of polygons", "why_tests_cant": "all polygon pairs", "anchors": ["crates/rerecast/src/poly_mesh.rs: get_poly_merge_value, merge_poly_verts"]}
{"id": "C47", "title": "Polygon adjacency is symmetric and edge-consistent", "statement": "If polygon p lists q as neighbour across an edge then q lists p across an edge with the same two vertices in reverse order.", "quantifier": "every polygon list with in-range vertices", "why_tests_cant": "all meshes", "anchors": ["crates/rerecast/src/poly_mesh.rs: build_mesh_adjacency"]}
{"id": "C48", "title": "Removing border vertices terminates and keeps the mesh valid", "statement": "Vertex removal in into_polygon_mesh always terminates and leaves a mesh whose polygons use only in-range vertices.", "quantifier": "every mesh and removable vertex", "why_tests_cant": "termination", "anchors": ["crates/rerecast/src/poly_mesh.rs: remove_vertex, can_remove_vertex, into_polygon_mesh"]}
{"id": "C49", "title": "Per-polygon tables of the final mesh have one entry per polygon", "statement": "In the returned PolygonNavmesh, polygons, neighbour table, regions and areas all have exactly one entry (row) per polygon.", "quantifier": "every contour set", "why_tests_cant": "all inputs", "anchors": ["crates/rerecast/src/poly_mesh.rs: From<InternalPolygonMesh> for PolygonNavmesh"]}
{"id": "C50", "title": "Detail hull triangulation is a full fan of the hull", "statement": "triangulate_hull on a hull of n>=3 vertices terminates with exactly n-2 triangles that use only hull vertices, whatever the float comparisons say.", "quantifier": "every hull length, every comparison outcome", "why_tests_cant": "all hull sizes", "anchors": ["crates/rerecast/src/detail_mesh.rs: triangulate_hull"]}
{"id": "C51", "title": "Height flood queue behaves as a FIFO queue", "statement": "The periodically compacted queue in the height-patch flood visits exactly the entries pushed, each once, in push order.", "quantifier": "every push/pop history", "why_tests_cant": "compaction every 256 pops", "anchors": ["crates/rerecast/src/detail_mesh.rs: get_height_data"]}
{"id": "C52", "title": "Detail mesh can be built without interior sampling", "statement": "DetailNavmesh::new succeeds for every configured sample distance, including 0 (documented as 'no sampling').", "quantifier": "every valid configuration and non-empty mesh", "why_tests_cant": "all configs", "anchors": ["crates/rerecast/src/detail_mesh.rs: build_poly_detail, triangulate_hull", "crates/rerecast/src/config.rs"]}
{"id": "C53", "title": "Configuration rounding is conservative", "statement": "The voxel configuration derived from metric settings never under-estimates agent height or radius and never over-estimates climb, whenever values are in range.", "quantifier": "every positive cell size and agent dimension of at most 65535 cells", "why_tests_cant": "continuum of inputs", "anchors": ["crates/rerecast/src/config.rs: ConfigBuilder::build"]}
{"id": "C54", "title": "Mesh serialisation round-trips", "statement": "Serialising a mesh and deserialising it gives back the same topology, indices and the values of all built-in attributes.", "quantifier": "every mesh whose built-in attributes have the formats Bevy assigns to them", "why_tests_cant": "all attribute subsets and sizes", "anchors": ["crates/bevy_rerecast_editor_integration/src/transmission/serialized_mesh.rs"]}
{"id": "C55", "title": "Editor payload indices are valid and shared assets are sent once", "statement": "In the editor response, every mesh/material/image index refers to an entry of the corresponding payload list, entities with the same asset get the same index, and different assets different indices.", "quantifier": "every scene", "why_tests_cant": "any number of entities and sharing patterns", "anchors": ["crates/bevy_rerecast_editor_integration/src/brp.rs"]}
{"id": "C56", "title": "Navmesh generation requests are served in order", "statement": "Requests queued for generation are started in first-in-first-out order and none is lost or duplicated.", "quantifier": "every interleaving of requests and updates", "why_tests_cant": "all histories", "anchors": ["crates/bevy_rerecast_core/src/generator.rs"]}
{"id": "C57", "title": "Rasterisation covers every triangle", "statement": "After rasterising a mesh, every point of every triangle that lies in the field's bounding box, above the inside of a grid cell, is inside a solid voxel of that cell inserted with the triangle's area; everything solid before stays solid; the clipping buffers never overflow and the call succeeds.", "quantifier": "every mesh, every prior history of insertions, every field of up to 32767 x 32767 cells less than 65535 voxels tall", "why_tests_cant": "infinitely many triangles, including degenerate ones and ones on grid lines", "anchors": ["crates/rerecast/src/rasterize.rs: Heightfield::rasterize_triangles, rasterize_triangle, divide_poly"]}
{"id": "C58", "title": "Rasterisation adds only touched voxels", "statement": "Every voxel that becomes solid by rasterising a mesh is touched by one of its triangles within the voxel's cell.", "quantifier": "every mesh and prior history", "why_tests_cant": "infinitely many triangles and positions relative to the grid", "anchors": ["crates/rerecast/src/rasterize.rs: Heightfield::rasterize_triangle"]}
{"id": "C59", "title": "Rasterisation works for every field size", "statement": "Rasterisation succeeds for every width and height that a heightfield can have (1 to 65535).", "quantifier": "every field size", "why_tests_cant": "fields of tens of thousands of cells are not built in tests", "anchors": ["crates/rerecast/src/rasterize.rs: Heightfield::rasterize_triangle"]}
{"id": "C60", "title": "Simplified contours stay within the error tolerance", "statement": "With edge splitting off, every raw outline vertex lies within max_error of the simplified polygon, except vertices on a border with another region of the same area. With edge splitting on (the default) every such vertex lies within twice max_error; max_error itself can be exceeded.", "quantifier": "every raw contour, every tolerance, every splitting setting", "why_tests_cant": "all contours; the bound must survive any sequence of vertex insertions", "anchors": ["crates/rerecast/src/contours.rs: simplify_contour", "crates/rerecast/src/math.rs: distance_squared_between_point_and_line_vec2"]}
{"id": "C61", "title": "Raw outlines are closed walks around one region", "statement": "Every outline traced by build_contours is a closed sequence of unit steps along cell sides, one vertex for each side that separates a span of the region from something that is not in the region, placed at the highest of the spans around that corner and labelled with the region across; a side is used by at most one outline and every boundary side of a region is on one; and the stored contours are exactly the simplified outlines with at least three vertices.", "quantifier": "every well-formed field with symmetric connections", "why_tests_cant": "outline shapes are unbounded", "anchors": ["crates/rerecast/src/contours.rs: build_contours, walk_contour"]}
{"id": "C62", "title": "Regions are connected", "statement": "After build_regions, any two spans with the same non-border region id are joined by reported neighbours through spans of that id.", "quantifier": "every well-formed field with a distance field, all parameters", "why_tests_cant": "flooding with rollback, expansion and merging in any order", "anchors": ["crates/rerecast/src/watershed_build_regions.rs: flood_region, expand_regions, merge_and_filter_regions"]}
{"id": "C63", "title": "Every walkable span outside the border gets a region", "statement": "With min_region_area 0, after build_regions every walkable span outside the border strips has a region id.", "quantifier": "every well-formed field with a distance field", "why_tests_cant": "all fields", "anchors": ["crates/rerecast/src/watershed_build_regions.rs: build_regions, expand_regions"]}
{"id": "C66", "title": "Detail sub-meshes partition the detail mesh and belong to their polygons", "statement": "Every DetailNavmesh returned has one sub-mesh per polygon; the sub-meshes use up the vertices, triangles and triangle flags consecutively without gap or overlap. Each sub-mesh starts with the polygon's corners, followed by samples on its sides and in its interior with heights looked up in the heightfield, has at most 127 vertices and 255 triangles, and every triangle has three different vertices of the sub-mesh as corners. Without interior samples the triangles exactly triangulate the outline.", "quantifier": "every heightfield and polygon mesh, all float operation outcomes, all allocators", "why_tests_cant": "sampling, simplification and Delaunay insertion interact over all float outcomes", "anchors": ["crates/rerecast/src/detail_mesh.rs: DetailNavmesh::new, build_poly_detail, delaunay_hull, SubMesh"]}
{"id": "C67", "title": "Triangle flags mark exactly the outline sides", "statement": "The flag of each side of a detail triangle is set exactly when the side belongs to the outline of the polygon.", "quantifier": "every outline and triangle list", "why_tests_cant": "all outlines", "anchors": ["crates/rerecast/src/detail_mesh.rs: set_tri_flags, on_hull"]}
{"id": "C68", "title": "Detail heights are the nearest heights of the region's ground", "statement": "The height of a detail sample is that of the nearest cell (counting rings) with a height in the polygon's height patch, ties decided by the height difference; the patch holds heights of connected spans, one in a cell, that start from the lowest spans of the polygon's region, or from a span near the polygon's centre if its region has none there.", "quantifier": "every field, patch and point", "why_tests_cant": "spiral search and flood over all patches", "anchors": ["crates/rerecast/src/detail_mesh.rs: get_height, get_height_data, seed_array_with_poly_center"]}
{"id": "C69", "title": "Storing detail vertices never panics", "statement": "However many vertices and triangles the polygons get, appending them to the detail mesh succeeds.", "quantifier": "every sequence of sub-mesh sizes, every vector growth policy", "why_tests_cant": "depends on allocation growth over long histories", "anchors": ["crates/rerecast/src/detail_mesh.rs: DetailNavmesh::new"]}
{"id": "C70", "title": "The detail mesh follows the sampled heights within the error", "statement": "Along each side of a polygon every height sample not kept as a vertex is within the configured error of the line between its kept neighbours; inside the polygon every point of the sample grid is a vertex or within the configured error of the detail triangles, unless the polygon is narrower than twice the sample distance or the limits of 127 vertices or 255 triangles are reached.", "quantifier": "every polygon mesh, field, sample distance and error, every order-respecting float arithmetic", "why_tests_cant": "greedy refinement over all surfaces and sample sets", "anchors": ["crates/rerecast/src/detail_mesh.rs: build_poly_detail"]}
{"id": "C71", "title": "Distances to segments, triangles and polygons are the geometric ones", "statement": "Without rounding, the distance helpers return the least squared distance to a segment, the height difference to the triangle below or above a point (exactly for points within the tolerance), the least squared distance to a polygon's sides with a minus sign exactly inside it, and the width test of polygons is true exactly if all corners are near one side.", "quantifier": "all points, segments, triangles and polygons with rational coordinates", "why_tests_cant": "all of a continuous domain", "anchors": ["crates/rerecast/src/math.rs: distance_squared_between_point_and_line_vec2, distance_squared_between_point_and_line_vec3", "crates/rerecast/src/detail_mesh.rs: dist_to_poly, dist_pt_tri, dist_to_tri_mesh, poly_min_extent_squared"]}
{"id": "C72", "title": "Bevy meshes become triangle meshes exactly", "statement": "A Bevy mesh is accepted exactly if it is a triangle list with three-float positions and a number of indices divisible by three; the triangle mesh then has these positions as vertices and the indices in groups of three as triangles, none of them walkable. Sending the mesh to the editor does not change the result.", "quantifier": "every mesh", "why_tests_cant": "all topologies, formats and lengths", "anchors": ["crates/bevy_rerecast_core/src/mesh.rs: TriMesh::from_mesh"]}
{"id": "C73", "title": "A build uses exactly the affectors' triangles", "statement": "The triangles a navmesh is built from are those of all affectors with an accepted mesh, in order, each moved by its entity's transform; others add nothing.", "quantifier": "every list of affectors whose indices are in range and whose vertices number at most 2^32-1", "why_tests_cant": "any number of affectors and meshes", "anchors": ["crates/bevy_rerecast_editor/src/build.rs: build_navmesh", "crates/bevy_rerecast_core/src/mesh.rs: mesh3d_backend"]}
{"id": "C74", "title": "Affectors reach the editor unchanged", "statement": "The triangle mesh the editor builds a navmesh from is the one the game's backend produced: vertices, triangles and area types.", "quantifier": "every triangle mesh", "why_tests_cant": "all meshes and area assignments", "anchors": ["crates/bevy_rerecast_editor/src/get_navmesh_input.rs: fetch_navmesh_input"]}
{"id": "C64", "title": "Regions do not lie above themselves", "statement": "No region of the result of build_regions contains two spans of the same column. (Documented as 'non-overlapping'; false for spiral ramps. What holds: joining regions never creates such an overlap, and a region that overlaps itself is not joined with another.)", "quantifier": "every well-formed compact heightfield with a distance field, border size and thresholds; any two spans of one column", "why_tests_cant": "depends on the whole sequence of joins and on how many floors lie above one another", "anchors": ["crates/rerecast/src/watershed_build_regions.rs: merge_and_filter_regions, can_merge_with, merge_regions"]}
{"id": "C65", "title": "Exactly the small islands are removed", "statement": "A group of connected walkable spans that does not touch the border strip is left without region by build_regions exactly if it has fewer than min_region_area spans. (Removal of small islands always holds; large islands can lose enclosed patches of another area.)", "quantifier": "every well-formed compact heightfield with a distance field, border size and thresholds, and every span", "why_tests_cant": "depends on the order in which regions are found and on their outlines", "anchors": ["crates/rerecast/src/watershed_build_regions.rs: merge_and_filter_regions"]}
{"id": "C75", "title": "The input of a build is the scene", "statement": "When the editor builds a navmesh, the triangles rasterized are exactly the triangles of the loaded triangle-list meshes with their transforms applied, marked walkable exactly if the slope test accepts them; the grid's box is the smallest one around all their vertices; affectors without a readable mesh change nothing; a scene without vertices is an error.", "quantifier": "every list of affectors (meshes, transforms), every configuration", "why_tests_cant": "scenes of any number and shape of meshes; index offsets depend on everything collected before", "anchors": ["crates/bevy_rerecast_editor/src/build.rs: build_navmesh", "crates/bevy_rerecast_core/src/mesh.rs: TriMeshFromBevyMesh::from_mesh", "crates/rerecast/src/trimesh.rs: extend, compute_aabb, mark_walkable_triangles"]}
{"id": "C76", "title": "The navmesh only covers places where the agent can be", "statement": "Every vertex of a built navmesh is at the corner of a cell with a place where the agent can stand: something of the scene is in the topmost voxel of the floor, there is ground of acceptable slope at or below it, nothing of the scene is in the agent's height above it, none of its four sides is an open drop of more than the climb, and the agent can walk (stepping between neighbouring cells, by at most its climb, with headroom) to every cell within its radius. Every polygon has such a place for each corner, and between any two of them the agent can walk over such places only.", "quantifier": "every scene, every configuration within the documented limits", "why_tests_cant": "composition of all stages over arbitrary geometry", "anchors": ["crates/bevy_rerecast_editor/src/build.rs: build_navmesh"]}
{"id": "C77", "title": "The navmesh covers the places where the agent can be", "statement": "Every place where the agent can stand and reach every cell within its radius is within a cell of the navmesh of its level. (Violated: the navmesh keeps clear of the sides of the scene's box by the agent's radius and three cells, because the border of the grid lies over the scene.)", "quantifier": "every scene, every configuration within the documented limits", "why_tests_cant": "quantifies over all places of all scenes", "anchors": ["crates/bevy_rerecast_editor/src/build.rs: build_navmesh", "crates/rerecast/src/config.rs: border_size", "crates/rerecast/src/heightfield.rs: HeightfieldBuilder::build"]}
{"id": "C78", "title": "The detail mesh of a build fits its polygon mesh", "statement": "In every build the stages before deliver what the detail mesh needs, so that the detail mesh has exactly one sub-mesh per polygon, with the polygon's corners and samples at the heights of the floors, and (with a positive sample distance and exact allocation) building it succeeds.", "quantifier": "every scene, every configuration within limits, every float arithmetic", "why_tests_cant": "composition of all stages over arbitrary geometry", "anchors": ["crates/bevy_rerecast_editor/src/build.rs: build_navmesh", "crates/rerecast/src/detail_mesh.rs: DetailNavmesh::new"]}
{"id": "C79", "title": "A build of a proper scene ends and does not panic", "statement": "Building a navmesh for a proper scene with settings within the documented limits returns a navmesh or an error, but neither panics nor runs forever. (Violated: levels without walkable ground, and levels narrower than twice the agent's radius and six cells, panic; the build of an L-shaped floor never ends.)", "quantifier": "every scene, every configuration within the documented limits", "why_tests_cant": "quantifies over all scenes", "anchors": ["crates/bevy_rerecast_editor/src/build.rs: build_navmesh", "crates/rerecast/src/compact_heightfield.rs: build_distance_field", "crates/rerecast/src/contours.rs: build_contours"]}
{"id": "C80", "title": "Edges of contours respect max_edge_len", "statement": "With max_edge_len positive, every edge of a returned contour that is a wall (if walls are to be split) or a border between areas (if those are to be split) is at most max_edge_len cells long.", "quantifier": "every well-formed compact heightfield with symmetric connections, every tolerance and splitting setting; contours whose round takes at most 40,000 steps", "why_tests_cant": "all outlines; the bound must survive repeated insertion and the removal of degenerate segments", "anchors": ["crates/rerecast/src/contours.rs: simplify_contour, remove_degenerate_segments, build_contours"]}
{"id": "C81", "title": "The detail mesh is where the navmesh is in the world", "statement": "In a built navmesh, the detail vertices of a polygon are, in world coordinates, first the polygon's corners (minimum of the scene's box plus cells counted with the border, one voxel above the floor), each at a place where the agent can be; then points on the polygon's sides or on the sample grid over the polygon, at heights of floors near the polygon to which the agent can walk from safe places near the polygon; these floors are at most as many cells from the sampled point as the edge error set by the user, rounded up (at least one).", "quantifier": "every scene and configuration within the limits of C76, in exact arithmetic", "why_tests_cant": "composition of all stages over arbitrary geometry; offsets by border and origin must agree between stages", "anchors": ["crates/bevy_rerecast_editor/src/build.rs: build_navmesh", "crates/rerecast/src/detail_mesh.rs: DetailNavmesh::new", "crates/rerecast/src/contours.rs: build_contours"]}
{"id": "C82", "title": "The outer sides of the navmesh are contour edges", "statement": "A side of a polygon that no other polygon has in the opposite direction is an edge of a contour: it joins the mesh vertices of two consecutive contour vertices, and the polygon has the contour's region and area. Within one contour, the polygons' outer sides are exactly its edges.", "quantifier": "every contour set whose contours visit no position twice, every number of vertices per polygon from three on", "why_tests_cant": "all contours and triangulations; merging and vertex removal must keep the boundary", "anchors": ["crates/rerecast/src/poly_mesh.rs: ContourSet::into_polygon_mesh"]}
{"id": "C83", "title": "The settings for regions, outlines and polygons take effect in a build", "statement": "In a built navmesh every polygon has three to verts_per_poly corners; outer sides along walls are at most edge_max_len long in the world (if edge_max_len is at least the cell size); outlines deviate from the cells by at most edge_max_error cells (twice that where edges are split); and no vertex belongs to an island of fewer than region_min_size squared places unless the island reaches the margin of the grid.", "quantifier": "every scene and configuration within the limits of C76", "why_tests_cant": "composition of all stages over arbitrary geometry", "anchors": ["crates/bevy_rerecast_editor/src/build.rs: build_navmesh", "crates/rerecast/src/config.rs: ConfigBuilder::build"]}
{"id": "C84", "title": "Rasterization does not abort in single precision", "statement": "Rasterizing a well-formed mesh with finite f32 coordinates into the heightfield of its bounding box, in single precision as the code computes, never aborts: the fixed clipping buffers suffice.", "quantifier": "every mesh with f32 coordinates, every cell size and height, every earlier content of the field", "why_tests_cant": "whether the buffers overflow depends on the rounding of single cuts; all triangles and grids are meant", "anchors": ["crates/rerecast/src/rasterize.rs: rasterize_triangle, divide_poly", "crates/rerecast/src/heightfield.rs: HeightfieldBuilder::build"]}
{"id": "C85", "title": "Rasterization adds nothing far from the triangles in single precision", "statement": "In single precision every voxel that rasterization makes solid is touched, up to a rounding error, by a triangle of the mesh.", "quantifier": "every mesh with f32 coordinates, every field, every earlier content", "why_tests_cant": "depends on the rounding of the row and column of each triangle; all triangles and grids are meant", "anchors": ["crates/rerecast/src/rasterize.rs: rasterize_triangle, divide_poly"]}
{"id": "C86", "title": "Regions are covered by polygons", "statement": "Every place in a cell of a region is under a polygon of that region in the polygon mesh, unless it is nearer to the end of the region than the simplification may move outlines.", "quantifier": "every compact heightfield with regions, every error tolerance and edge length, every place in the cells", "why_tests_cant": "the simplified outlines and triangulations of all regions and all points of the plane are meant; a hole can appear anywhere", "anchors": ["crates/rerecast/src/contours.rs: CompactHeightfield::build_contours, simplify_contour", "crates/rerecast/src/poly_mesh.rs: ContourSet::into_polygon_mesh"]}
{"id": "C87", "title": "The contour tolerance survives single precision", "statement": "With the arithmetic the program uses, the outlines of regions deviate from the cells by no more than the error tolerance plus a rounding error that is a small fraction of a cell, and the places clear of a region's ends are under its polygons.", "quantifier": "every outline on a grid of up to 16777216 cells, every tolerance, every compact heightfield with regions", "why_tests_cant": "rounding depends on every coordinate and on the tolerance; the bound has to hold for all of them", "anchors": ["crates/rerecast/src/math.rs: distance_squared_between_point_and_line_u16vec2, distance_squared_between_point_and_line_vec2", "crates/rerecast/src/contours.rs: simplify_contour, CompactHeightfield::build_contours"]}
{"id": "C88", "title": "Configuration rounding in single precision", "statement": "With the arithmetic the program uses, the voxel configuration derived from metric settings never under-estimates agent height or radius and never over-estimates climb, and its grid covers the given box.", "quantifier": "every positive cell size and agent dimension of at most 65535 cells", "why_tests_cant": "whether a quotient rounds to a whole number depends on the settings bit by bit", "anchors": ["crates/rerecast/src/config.rs: NavmeshConfigBuilder::build"]}
{"id": "C89", "title": "Regions larger than the merge size are not joined", "statement": "merge_region_area is the maximum area of a region that build_regions may join with another: two sets of spans that the watershed labels apart stay in different regions if both have more than merge_region_area spans.", "quantifier": "every compact heightfield with a distance field, every border size and every pair of size settings", "why_tests_cant": "whether two regions are joined depends on all joins before it and on the whole outlines of both", "anchors": ["crates/rerecast/src/watershed_build_regions.rs: CompactHeightfield::build_regions, merge_and_filter_regions, walk_contour", "crates/rerecast/src/config.rs: NavmeshConfig::merge_region_area"]}
{"id": "C90", "title": "Rasterization in single precision leaves no gaps", "statement": "If rasterizing a mesh with the arithmetic the program uses returns, then every point of a triangle that lies well inside a cell, by more than a rounding error, has a solid voxel in that cell at its height, up to the rounding error.", "quantifier": "every mesh with f32 coordinates, every field of up to 32767 x 32767 cells within 32768 cells of the origin, every earlier content, every point of every triangle", "why_tests_cant": "a gap can open at any cut of any triangle, depending on how the cuts before it were rounded", "anchors": ["crates/rerecast/src/rasterize.rs: rasterize_triangles, rasterize_triangle, divide_poly"]}
{"id": "C91", "title": "No gaps between regions that meet", "statement": "Where regions meet, the polygon mesh has no gap between them: a place in a cell of one of the regions is under a polygon of one of them, unless it is nearer to where they end than the simplification may move outlines.", "quantifier": "every compact heightfield with regions, every set of its regions, every error tolerance and edge length, every place in the cells", "why_tests_cant": "each region is simplified on its own, so that two outlines take the same line must hold for every shape of the line between two regions and every place along it", "anchors": ["crates/rerecast/src/contours.rs: CompactHeightfield::build_contours, simplify_contour", "crates/rerecast/src/poly_mesh.rs: ContourSet::into_polygon_mesh"]}
{"id": "C92", "title": "Open ground is under a polygon", "statement": "In a finished build, a point of the scene around which the ground is open (the agent has room, can step in all directions and there is nothing else to stand on, up to twice the permitted error of the outlines, and away from the border of the grid) is under a polygon of the navmesh, seen from above.", "quantifier": "every scene, every configuration and every point of the world", "why_tests_cant": "it must hold for every shape of scene and at every point, and every stage of the build (rasterization, filters, erosion, regions, contours, triangulation, merging) can lose ground", "anchors": ["crates/bevy_rerecast_editor/src/build.rs: build_navmesh", "crates/rerecast/src/contours.rs: CompactHeightfield::build_contours", "crates/rerecast/src/poly_mesh.rs: ContourSet::into_polygon_mesh", "crates/rerecast/src/watershed_build_regions.rs: build_regions"]}
{"id": "C93", "title": "The editor draws exactly the navmesh", "statement": "Drawing a navmesh never panics; for a polygon mesh it draws one closed line through the corners of each polygon in order and fills each polygon with triangles that are its own corners and add up to its area, and that neither overlap nor leave gaps if the polygon is strictly convex; for a detail mesh it draws and fills exactly the triangles of every sub-mesh; for an affector it draws exactly its triangles. polygons() yields every polygon once, in order, without padding.", "quantifier": "every polygon mesh made from contours, every detail mesh of it, every triangle mesh, and every way to place vertices in the world", "why_tests_cant": "the slices, offsets and padding must be right for every number of polygons, of corners per polygon and of sub-meshes", "anchors": ["crates/bevy_rerecast_editor/src/visualization.rs: draw_poly_mesh, draw_detail_mesh, draw_navmesh_affector", "crates/rerecast/src/poly_mesh.rs: PolygonNavmesh::polygons"]}
{"id": "C94", "title": "The editor shows what is checked", "statement": "After the visualisation systems have run, the editor shows the lines and fill of the last built navmesh exactly for the kinds of mesh that are checked, shows the visual meshes of the scene exactly if they are checked, and draws the affectors of the scene exactly if they are checked.", "quantifier": "every history of clicks, builds, loaded scenes and runs of the systems in any order", "why_tests_cant": "run conditions depend on when each condition last ran; it must hold for every interleaving of clicks, builds, loads and frames", "anchors": ["crates/bevy_rerecast_editor/src/visualization.rs: GizmosToDraw, draw_poly_mesh, draw_detail_mesh, draw_visual, draw_navmesh_affector, hide_poly_mesh, hide_detail_mesh, hide_visual, hide_affector, gizmo_enabled, toggled_gizmo_on, toggled_gizmo_off", "crates/bevy_rerecast_editor/src/get_navmesh_input.rs: poll_navmesh_input"]}
{"id": "C95", "title": "Small regions are joined with the smallest region they touch", "statement": "A region of at most merge_region_area cells that touches a region it may be joined with (same area, touching in one stretch, not above or below each other) does not stay alone; and regions that are joined touch in at most one stretch, and no smaller region was there to be joined with.", "quantifier": "every walkable field with its distance field, every border width, minimum region area and merge area", "why_tests_cant": "regions are joined one after the other and each merge changes what the others touch; it must hold for every order and every shape of the regions", "anchors": ["crates/rerecast/src/watershed_build_regions.rs: merge_and_filter_regions, walk_contour, Region::can_merge_with, Region::merge, remove_adjacent_neighbours, replace_neighbour"]}
{"id": "C96", "title": "The editor builds from the colliders of static bodies", "statement": "In a game with the collider backend, the triangles the editor builds a navmesh from are those of the colliders of static bodies, in order, each moved by the transform of its collider and, in a compound, by the pose of its part; shapes listed as unsupported add nothing, rounding is ignored, and colliders of other bodies have no influence. A request without a backend or with parameters is answered with an error, and the backend set last is the one that counts.", "quantifier": "every world of colliders, bodies and visible meshes, every conversion of shapes by the physics engine, every history of backends set and requests made", "why_tests_cant": "worlds and histories are unbounded; a test converts single colliders and never composes backend, transmission and editor", "anchors": ["crates/avian_rerecast/src/lib.rs: collider_backend", "crates/avian_rerecast/src/collider_to_trimesh.rs: shape_to_trimesh, compound_trimesh", "crates/bevy_rerecast_core/src/backend.rs: set_navmesh_affector_backend", "crates/bevy_rerecast_editor_integration/src/brp.rs: get_navmesh_input", "crates/bevy_rerecast_editor/src/get_navmesh_input.rs: fetch_navmesh_input", "crates/bevy_rerecast_editor/src/build.rs: build_navmesh"]}
{"id": "C97", "title": "The camera of the editor obeys the grab", "statement": "The cursor is locked and hidden only while it is grabbed (button held, or toggled on), and then in every window focused at the change; without the grab neither mouse nor keys turn or move the camera; the camera never turns over; it moves with the walking speed, three times as fast when running; it comes to rest when no key is pressed; and scrolling never leaves it unable to move.", "quantifier": "every history of frames with any keys, mouse motion, scrolling, focus and frame times", "why_tests_cant": "the state depends on the whole history of frames; no test can play all of them", "anchors": ["crates/bevy_rerecast_editor/src/camera/camera_controller.rs: run_camera_controller, CameraController"]}
{"id": "C98", "title": "Simple contours become a partition into convex polygons", "statement": "A contour that does not touch itself and runs in the direction of outer contours, convex or not, is always triangulated, and its triangles and the strictly convex polygons they are merged into do not overlap and together cover exactly what the contour encloses.", "quantifier": "every contour of any number of corners with coordinates up to 32767 that does not touch itself; every contour set containing such contours; every maximal polygon size", "why_tests_cant": "shapes of contours are unbounded; that a triangulator never gives up and never folds over needs an argument about all simple polygons (every one has ears, and the ear tests find them)", "anchors": ["crates/rerecast/src/poly_mesh.rs: triangulate, is_diagonal, in_cone, intersect_prop, between, into_polygon_mesh"]}
{"id": "C99", "title": "Short cuts first", "statement": "Contours are cut into triangles ear by ear: every triangle is an ear of what is left of the contour at that time (three consecutive corners that turn like the contour, with no other corner in their triangle), and among all its ears one with the shortest new side, so that triangles do not become needlessly thin.", "quantifier": "every contour of any number of corners with coordinates up to 32767 that does not touch itself, every step of its triangulation", "why_tests_cant": "the order of cuts depends on all corners left; a test sees small contours only, where lengths are not truncated", "anchors": ["crates/rerecast/src/poly_mesh.rs: triangulate"]}
{"id": "C100", "title": "Detail triangles fill their polygon", "statement": "Seen from above, the detail triangles of a strictly convex polygon fill it: no point is inside two of them, none sticks out of the polygon, and every enclosed point is in one of them, however many samples were added on the sides; for sub-meshes without interior samples, and hence for every polygon narrower than twice the sample distance. In particular for every polygon of a contour that does not touch itself.", "quantifier": "every detail mesh computed without rounding, every strictly convex polygon of any number of corners in it, every height field, every choice of samples on the sides", "why_tests_cant": "how many samples are kept and where depends on the heights along the sides, and the triangulation depends on them; overlap and gaps are claims about all points of the plane", "anchors": ["crates/rerecast/src/detail_mesh.rs: build_poly_detail, triangulate_hull"]}
{"id": "C101", "title": "No seams between the detail meshes of neighbours", "statement": "Two polygons that have a side in common get the same detail vertices on it, at exactly the same positions, in opposite order, whatever the rounding is: provided the heights found from both polygons along the side agree, the corners are told apart by the comparisons, and the limit on vertices is not near (at most 95 vertices in the sub-meshes). In exact arithmetic corners at different places are told apart if cells are at least a millionth wide, and heights agree where a cell has just one span, of the region of both polygons. Where the heights found differ, as over gaps in the field, there can be seams.", "quantifier": "every detail mesh, every pair of polygons with a common side, every height field, every float arithmetic", "why_tests_cant": "which samples are kept depends on all heights along the side and on the direction in which it is walked; a test sees a few sides with a few heights", "anchors": ["crates/rerecast/src/detail_mesh.rs: build_poly_detail", "crates/rerecast/src/detail_mesh.rs: get_height"]}
{"id": "C102", "title": "Area volumes in single precision", "statement": "With every operation rounded to f32, marking an area volume succeeds and changes only areas, only to the volume's area. A walkable span gets the area if its floor is in the vertical range of the volume, and the centre of its cell inside the polygon and away from its outline, by more than rounding can do (a millionth of the extent of the scene); it keeps its own area if it is out of the range, or outside the polygon, by that much. On the verge rounding decides: two volumes that share a side can both miss a cell.", "quantifier": "every well-formed field, every frame of up to 2^15 cells, every polygon with any number of vertices (no side within 2^-60 of being parallel to x without being so)", "why_tests_cant": "rounding errors depend on every bit of the coordinates; a test samples a few polygons", "anchors": ["crates/rerecast/src/mark_convex_poly_area.rs: mark_convex_poly_area, point_in_poly"]}
{"id": "C103", "title": "What the maximum slope means", "statement": "Marking walkable triangles with an angle of at least 0 and less than a right angle marks exactly the triangles that face up and on which every walk, in whatever direction, rises by strictly less than the tangent of the angle per horizontal distance; walls, ceilings and degenerate triangles keep their area, and a larger angle never unmarks a triangle. Every vertex of a navmesh is over such a triangle of the scene. Ground of exactly the given slope is not walkable, so with the documented minimum of 0 no build succeeds, not even on level ground.", "quantifier": "every triangle mesh, every angle from 0 to below a right angle, every scene and settings within the limits of the grid", "why_tests_cant": "triangles of every shape, size and orientation; a test compares a few of them with one angle", "anchors": ["crates/rerecast/src/trimesh.rs: TriMesh::mark_walkable_triangles", "crates/rerecast/src/math.rs: TriangleIndices::normal", "crates/rerecast/src/config.rs: walkable_slope_angle"]}
{"id": "C104", "title": "Moving the level moves the navmesh", "statement": "If every object of a scene is moved by the same vector, with whatever components, also such that are no multiples of the cell size, and coordinates are computed without rounding, then a polygon mesh is built from the moved scene exactly if one is built from the scene, and it is the same one: the same vertices counted in cells, polygons, neighbours, regions, flags and areas, on a grid whose origin is moved by the vector, so every vertex is at the moved place in the world. Nothing depends on where in the world the level is.", "quantifier": "every scene with coordinates in the range of floats before and after the move, every vector, all settings with positive cell sizes, every slope test that does not look at absolute positions (the library's is one)", "why_tests_cant": "every scene and every vector, including all fractions of a cell; a test compares a few pairs of builds", "anchors": ["crates/bevy_rerecast_editor/src/build.rs: build_navmesh", "crates/rerecast/src/rasterize.rs: rasterize_triangles, rasterize_triangle, divide_poly", "crates/rerecast/src/trimesh.rs: TriMesh::compute_aabb, mark_walkable_triangles, extend"]}
{"id": "C105", "title": "Only the triangles count, not how they are stored", "statement": "Two scenes with the same triangles in the same order, and with the same set of vertex positions, give the same navmesh, polygon mesh and detail mesh alike, or the same error. It does not matter over how many objects the triangles are spread, which triangles share vertices by index, how vertices are numbered or repeated, or how a position is divided between mesh and transform. If every vertex belongs to a triangle, the triangles alone decide. A vertex of no triangle counts only if it enlarges the bounding box. An object without a readable mesh changes nothing, wherever it is in the scene.", "quantifier": "every pair of scenes whose indices are in range and whose coordinates are in the range of floats, all settings, any float arithmetic in the detail mesh", "why_tests_cant": "there are unboundedly many ways to store the same triangles; a test compares a few of them", "anchors": ["crates/bevy_rerecast_editor/src/build.rs: build_navmesh", "crates/rerecast/src/trimesh.rs: TriMesh::extend, compute_aabb, mark_walkable_triangles", "crates/rerecast/src/rasterize.rs: rasterize_triangles"]}
{"id": "C106", "title": "The unit of length does not matter", "statement": "If a scene and all settings that are lengths in the world (size and height of cells, height, radius and climb of the agent, length of edges) are enlarged by the same positive factor, and coordinates are computed without rounding, then a polygon mesh is built exactly if one was built before, and it is the same one, counted in cells; every vertex is at the enlarged place in the world. So metres, feet or any other unit give the same navmesh, and the settings documented in cells or voxels are really independent of the unit.", "quantifier": "every scene with coordinates in the range of floats before and after, every positive factor, all settings within their documented limits, every slope test that does not look at sizes (the library's is one)", "why_tests_cant": "every scene, every setting and every factor; a test compares a few pairs of builds", "anchors": ["crates/rerecast/src/config.rs: NavmeshConfigBuilder::build", "crates/bevy_rerecast_editor/src/build.rs: build_navmesh", "crates/rerecast/src/rasterize.rs: rasterize_triangles, rasterize_triangle, divide_poly", "crates/rerecast/src/trimesh.rs: TriMesh::compute_aabb, mark_walkable_triangles"]}
{"id": "C107", "title": "The box, tile size and tiling of the settings have no effect", "statement": "Two settings that differ only in their bounding box, tile size and choice of tiling, and that are both accepted, give the same navmesh, polygon mesh and detail mesh alike, or the same error. Without tiling every box and tile size is accepted. So the box of the settings, documented as that of the field, does not restrict a build: the whole scene is built, also outside of the box, and no tiles.", "quantifier": "every scene, all settings, any float arithmetic", "why_tests_cant": "it is about every value of three settings on every scene", "anchors": ["crates/bevy_rerecast_editor/src/build.rs: build_navmesh", "crates/rerecast/src/config.rs: NavmeshConfigBuilder::build, NavmeshConfig::aabb"]}
{"id": "C108", "title": "The order of the triangles does not matter", "statement": "Two scenes with the same triangles and the same vertex positions give the same navmesh, polygon mesh and detail mesh alike, whatever the order of the objects and of the triangles is and however often a triangle occurs.", "quantifier": "every scene and every reordering and repetition of its triangles", "why_tests_cant": "factorially many orders of arbitrarily many triangles; the merging of spans depends on the order", "anchors": ["crates/rerecast/src/rasterize.rs: rasterize_triangles, rasterize_triangle", "crates/rerecast/src/heightfield.rs: Heightfield::add_span", "crates/rerecast/src/compact_heightfield.rs: into_compact", "crates/bevy_rerecast_editor/src/build.rs: build_navmesh"]}
