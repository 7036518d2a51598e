{"id": "C01", "title": "A returned path always ends at the requested destination", "statement": "Whenever Mesh::path / Mesh::path_on_layers returns Some(path), or the future of Mesh::get_path resolves to Some(path), path.path is non-empty and its last element is exactly the position passed as destination (and, with detailed-layers, path_with_layers ends at that position on the layer of the destination polygon).", "quantifier": "every mesh (well formed or not), every pair of coordinates, every set of blocked layers, every floating point behaviour, every tie-break of the priority queue", "why_tests_cant": "the claim is about every search history; tests sample a few meshes", "anchors": ["src/lib.rs:Mesh::path_on_layers", "src/instance.rs:SearchInstance::next", "src/async_helpers.rs:FuturePath::poll"]}
{"id": "C02", "title": "A returned path is realised by a corridor of neighbouring polygons", "statement": "Whenever a path is returned there is a finite sequence of polygons starting with the polygon of the start point and ending with the polygon of the end point, in which each polygon has an edge both of whose end vertices list the next polygon as neighbour. In particular no path is ever returned between polygons that are not connected.", "quantifier": "every mesh, start, end, blocked set, arithmetic, queue order", "why_tests_cant": "soundness must hold for every graph shape and every expansion order", "anchors": ["src/lib.rs:Mesh::path_on_layers", "src/instance.rs:SearchInstance::successors", "src/instance.rs:SearchInstance::setup"]}
{"id": "C03", "title": "Blocked layers are never entered", "statement": "For Mesh::path_on_layers(from,to,blocked), every polygon of the corridor except the starting one lies on a layer that is not in `blocked`; if the destination polygon lies on a blocked layer and is not the start polygon, the result is None.", "quantifier": "every mesh, number of layers, blocked set, pair of points", "why_tests_cant": "a leak through one rare expansion order would be missed by tests", "anchors": ["src/lib.rs:Mesh::path_on_layers", "src/instance.rs:SearchInstance::successors"]}
{"id": "C04", "title": "Dead-end polygons are only used as destination", "statement": "A polygon flagged is_one_way is never traversed by a returned path's corridor unless it is the first or the last polygon.", "quantifier": "every mesh, pair of points", "why_tests_cant": "depends on every expansion of every search", "anchors": ["src/instance.rs:SearchInstance::successors", "src/primitives.rs:Polygon::is_one_way"]}
{"id": "C05", "title": "Paths only bend at corners", "statement": "Every intermediate waypoint of a returned path, except possibly the one directly before the destination, is within the 1e-10 squared-distance tolerance of the (offset) position of a mesh vertex that is a corner (or, when layers are blocked, that touches the outside or a blocked layer); the waypoint directly before the destination may also be an endpoint of the interval through which the destination polygon is entered.", "quantifier": "every mesh, start, end, blocked set, arithmetic", "why_tests_cant": "bends are produced by arbitrarily long chains of expansions", "anchors": ["src/instance.rs:SearchInstance::successors", "src/instance.rs:SearchInstance::add_node", "src/helpers.rs:turning_point"]}
{"id": "C06", "title": "The reported length is the length of the returned polyline", "statement": "In exact arithmetic, path.length equals the sum of the Euclidean lengths of the segments start, path[0], ..., path[n-1].", "quantifier": "every mesh and pair of points", "why_tests_cant": "the length is accumulated incrementally by the search and finished with a heuristic; agreement is a property of every history", "anchors": ["src/instance.rs:SearchInstance::next", "src/instance.rs:SearchInstance::add_node", "src/helpers.rs:heuristic", "src/helpers.rs:turning_point"]}
{"id": "C07", "title": "The reported length is never shorter than the straight line", "statement": "In exact arithmetic, path.length is at least the Euclidean distance between start and destination.", "quantifier": "every mesh and pair of points", "why_tests_cant": "a lower bound over all inputs", "anchors": ["src/instance.rs:SearchInstance::next", "src/helpers.rs:heuristic"]}
{"id": "C08", "title": "Start and end in the same polygon give the straight segment", "statement": "If the start and end point are located in the same polygon, path returns exactly [to] with length equal to the distance between them, whatever layers are blocked and whether or not the mesh is baked.", "quantifier": "every mesh, every two points located in one polygon", "why_tests_cant": "for all meshes and points", "anchors": ["src/lib.rs:Mesh::path_on_layers"]}
{"id": "C09", "title": "Path queries terminate", "statement": "Mesh::path and each poll of Mesh::get_path terminate on every mesh, even inconsistent ones: a query performs at most 10 * (number of polygons) queue pops and each pop explores each polygon at most once in its intermediate chain.", "quantifier": "every mesh, including malformed adjacency with cycles, every arithmetic", "why_tests_cant": "non-termination on some input cannot be excluded by testing", "anchors": ["src/lib.rs:Mesh::path_on_layers", "src/instance.rs:SearchInstance::successors"]}
{"id": "C10", "title": "No panic and no out-of-bounds access on well-formed meshes", "statement": "On a mesh whose indices are all in range, with non-empty polygons and NaN-free arithmetic, path / path_on_layers / point queries never panic and never read out of bounds, for every pair of points.", "quantifier": "every well-formed mesh, every pair of points and blocked set", "why_tests_cant": "index arithmetic along every search history", "anchors": ["src/instance.rs:SearchInstance::edges_between", "src/instance.rs:SearchInstance::setup", "src/layers.rs:Layer::point_in_polygon"]}
{"id": "C11", "title": "Unchecked vertex accesses are guarded on every mesh", "statement": "No safe API call may read out of bounds whatever vertex indices the polygons contain.", "quantifier": "every mesh including ones with dangling vertex indices", "why_tests_cant": "an off-by-one in a guard only matters for one boundary index", "anchors": ["src/instance.rs:SearchInstance::edges_between", "src/layers.rs:Layer::point_in_polygon"]}
{"id": "C12", "title": "Island baking never changes the result of a query", "statement": "On a single-layer mesh whose vertex/polygon references are mutually consistent, Mesh::path returns the same result with and without the baked island information.", "quantifier": "every consistent single-layer mesh, every query, every arithmetic, both feature sets", "why_tests_cant": "equality of two algorithms on all inputs", "anchors": ["src/layers.rs:Layer::bake_islands_detection", "src/lib.rs:Mesh::path_on_layers"]}
{"id": "C13", "title": "Baked islands are the connected components", "statement": "After Layer::bake_islands_detection on a layer with consistent references, two polygons carry the same island label iff they are connected through shared vertices; baking terminates, every polygon gets a label, and the label is the smallest polygon index of its component.", "quantifier": "every layer", "why_tests_cant": "graph algorithm correctness on all graphs", "anchors": ["src/layers.rs:Layer::bake_islands_detection"]}
{"id": "C14", "title": "The baked polygon finder finds a polygon iff the linear scan does", "statement": "In exact arithmetic, for every layer and point, looking up the point with the baked polygon finder succeeds iff looking it up without baking succeeds, and the polygon returned contains the point.", "quantifier": "every layer with finite coordinates, every point", "why_tests_cant": "bounding boxes must cover every polygon for all coordinates, including negative ones", "anchors": ["src/layers.rs:Layer::bake_polygon_finder", "src/layers.rs:Layer::get_point_location_unit_baked", "src/layers.rs:Layer::point_in_polygon"]}
{"id": "C15", "title": "Point location queries agree with each other", "statement": "point_in_mesh(p) holds iff get_point_layer(p) is non-empty; get_point_layer lists each layer at most once in increasing order, each with the queried position; a query restricted to a layer only answers for that layer; out-of-range layers give false / empty.", "quantifier": "every mesh with at most 255 layers of at most 2^24-1 polygons, every point", "why_tests_cant": "for all meshes and points", "anchors": ["src/lib.rs:Mesh::point_in_mesh", "src/lib.rs:Mesh::get_point_layer", "src/lib.rs:Mesh::get_point_locations"]}
{"id": "C16", "title": "get_closest_point returns a point of the mesh on the requested layer, on the first ring that hits", "statement": "If get_closest_point returns Some(c), then c lies in a polygon of the layer it names, that layer is the requested one if one was requested, c is a sample of ring number step < search_steps, no sample of a smaller ring is in the mesh (or requested layer), and in exact arithmetic the distance from the query to c is step*search_delta; a point in the mesh is returned unchanged.", "quantifier": "every mesh, point, delta, steps", "why_tests_cant": "for all inputs", "anchors": ["src/lib.rs:Mesh::get_closest_point", "src/layers.rs:Layer::get_closest_point_inner"]}
{"id": "C17", "title": "get_closest_point_towards walks along the ray", "statement": "If get_closest_point_towards returns Some(c), c is the query moved step*search_delta in the direction of `towards` for the smallest step < search_steps that hits a polygon of the (requested) layer; in exact arithmetic it is at distance step*search_delta.", "quantifier": "every mesh, point, direction, delta, steps", "why_tests_cant": "for all inputs", "anchors": ["src/lib.rs:Mesh::get_closest_point_towards", "src/layers.rs:Layer::get_closest_point_towards_inner"]}
{"id": "C18", "title": "Packed polygon ids are lossless and never collide with the 'no polygon' marker", "statement": "Packing (layer, polygon) into the u32 id used in Vertex::polygons and unpacking gives back both components for every layer and polygon < 2^24; ids are distinct for distinct pairs; a layer accepted by Layer::new never produces the id u32::MAX.", "quantifier": "all 2^32 values", "why_tests_cant": "bit-level identity on the full domain", "anchors": ["src/instance.rs:U32Layer", "src/layers.rs:Layer::new"]}
{"id": "C19", "title": "remove_stitches undoes stitching", "statement": "Starting from an unstitched mesh, stitch_at_vertices (any stitch list, one way or not) followed by remove_stitches gives every vertex back its original set of neighbouring polygons and leaves coordinates, polygons, offsets untouched.", "quantifier": "every unstitched mesh with at most 256 layers, every stitch list between existing vertices of different layers, both values of one_way", "why_tests_cant": "round trip over all inputs", "anchors": ["src/stitching.rs:Mesh::stitch_at_vertices", "src/stitching.rs:Mesh::remove_stitches"]}
{"id": "C20", "title": "Stitching connects exactly the stitched vertices", "statement": "After stitch_at_vertices on an unstitched mesh, a vertex of layer a lists a polygon of layer b != a iff some stitched pair links that vertex to a vertex of b that listed that polygon (in the from->to direction always, in the to->from direction unless one_way), and each vertex still lists all its own polygons.", "quantifier": "every unstitched mesh with at most 256 layers, every stitch list between existing vertices of different layers, both values of one_way", "why_tests_cant": "exact set characterisation for all inputs", "anchors": ["src/stitching.rs:Mesh::stitch_at_vertices", "src/mesh_cleanup.rs:Mesh::reorder_neighbors_ccw_and_fix_corners"]}
{"id": "C21", "title": "find_stitch_points lists exactly the shared vertex positions", "statement": "find_stitch_points returns, sorted by layer pair and with each pair once, exactly the pairs (a,b), a<b, of layers that share a vertex position, with exactly the shared positions; stitching at those points never panics.", "quantifier": "every mesh with <=256 layers", "why_tests_cant": "for all meshes", "anchors": ["src/stitching.rs:Mesh::find_stitch_points", "src/stitching.rs:Mesh::stitch_at_points"]}
{"id": "C22", "title": "remove_stitches_to_layer isolates exactly one layer", "statement": "After remove_stitches_to_layer(t), no vertex of another layer references layer t, no vertex of t references another layer, vertices of t are back to unstitched numbering, and every other reference is unchanged.", "quantifier": "every stitched mesh, every t", "why_tests_cant": "for all meshes", "anchors": ["src/stitching.rs:Mesh::remove_stitches_to_layer"]}
{"id": "C23", "title": "Reordering neighbours keeps the neighbour set and fixes corner flags", "statement": "reorder_neighbors_ccw_and_fix_corners keeps, for every vertex, exactly the set of neighbouring polygons, marks it as corner iff its neighbour list contains u32::MAX, gives isolated vertices the list [u32::MAX], and changes nothing else.", "quantifier": "every mesh with in-range references, every angle function", "why_tests_cant": "for all meshes", "anchors": ["src/mesh_cleanup.rs:Mesh::reorder_neighbors_ccw_and_fix_corners"]}
{"id": "C24", "title": "merge_polygons reports progress truthfully and repeated merging stops", "statement": "Layer::merge_polygons returns true iff the number of polygons decreased; it never increases; `while mesh.merge_polygons() {}` terminates after at most (total polygons) calls.", "quantifier": "every layer/mesh, every convexity oracle", "why_tests_cant": "for all inputs", "anchors": ["src/merger.rs:Layer::merge_polygons", "src/merger.rs:Mesh::merge_polygons"]}
{"id": "C25", "title": "merge_polygons keeps references valid and vertices in place", "statement": "After merge_polygons, vertex coordinates and count are unchanged, every neighbour reference points to an existing polygon (or u32::MAX), references to merged polygons are redirected to the polygon that absorbed them, and a vertex/polygon-consistent layer stays consistent; the layer is unbaked.", "quantifier": "every layer and every convexity test for the references; every consistent layer of properly meeting polygons and every convexity test that accepts no ring visiting a point twice for consistency", "why_tests_cant": "for all inputs", "anchors": ["src/merger.rs:Layer::merge_polygons"]}
{"id": "C26", "title": "merge_polygons preserves the total area", "statement": "For a layer in which polygons sharing two consecutive vertices share that edge in opposite direction, merge_polygons keeps the sum of the signed areas of all polygons (and each merged polygon's boundary is the symmetric difference of the two boundaries).", "quantifier": "every such layer, every convexity test that accepts no ring visiting a point twice", "why_tests_cant": "algebraic identity over all coordinates", "anchors": ["src/merger.rs:Layer::merge_polygons", "src/primitives.rs:Polygon::area"]}
{"id": "C27", "title": "Union-find used for merging is correct", "statement": "For every sequence of union operations on n elements, find terminates, two elements have the same representative iff they are related by the equivalence closure of the unions; path compression does not change representatives.", "quantifier": "all n, all operation sequences", "why_tests_cant": "history property", "anchors": ["src/merger.rs:UnionFind"]}
{"id": "C28", "title": "remove_useless_vertices keeps all polygon shapes", "statement": "Layer::remove_useless_vertices removes exactly the vertices that list no polygon, keeps the others in order, keeps every polygon's corners the same vertices under their new numbers (when they are used), returns true iff something was removed, and is idempotent; it panics only if a polygon has an out-of-range corner.", "quantifier": "every layer", "why_tests_cant": "index remapping on all inputs", "anchors": ["src/mesh_cleanup.rs:Layer::remove_useless_vertices"]}
{"id": "C29", "title": "PolyanyaFile round trip", "statement": "from_bytes(to_bytes(f)) gives back the same number of vertices and polygons, the same coordinates up to the 6 decimals written, the same neighbour lists and the same polygon vertex lists; a second round trip is the identity.", "quantifier": "every file content with non-empty neighbour lists and polygons", "why_tests_cant": "round trip over all inputs", "anchors": ["src/input/polyanya_file.rs:PolyanyaFile::from_bytes", "src/input/polyanya_file.rs:PolyanyaFile::to_bytes"]}
{"id": "C30", "title": "One-way flag from file neighbours", "statement": "A polygon read from a file is flagged is_one_way iff neighbours are given and at most one of them is not -1; its vertices are the first n numbers.", "quantifier": "every n and neighbour list", "why_tests_cant": "for all lists", "anchors": ["src/primitives.rs:Polygon::using"]}
{"id": "C31", "title": "Trimesh conversion is exact", "statement": "Mesh::try_from(Trimesh) fails with InvalidMesh iff some vertex is in no triangle (given a non-faulting input), otherwise yields one polygon per triangle with the same vertices, and each vertex lists exactly the triangles that contain it, plus u32::MAX exactly where two consecutive listed triangles do not share an edge. Where the triangles around a vertex lie on one side of a line through it they are listed counterclockwise; a vertex with an edge that belongs to one triangle only is always a corner.", "quantifier": "every trimesh with distinct in-range indices, every ordering produced by the sort", "why_tests_cant": "for all meshes and all sort behaviours", "anchors": ["src/input/trimesh.rs:TryFrom<Trimesh> for Mesh"]}
{"id": "C32", "title": "Triangulation settings do not interfere", "statement": "After any sequence of set_agent_radius, set_agent_radius_segments, set_agent_radius_simplification and agent_radius_on_outer_edge, the effective radius, segment count, simplification and outer-edge flag are each the last value set (defaults 0, 5, 0, false), independently of the order of calls to different setters.", "quantifier": "all call sequences", "why_tests_cant": "history property", "anchors": ["src/input/triangulation.rs:Triangulation::set_agent_radius"]}
{"id": "C33", "title": "Obstacles are never lost by the triangulation builder", "statement": "For every sequence of add_obstacle, add_obstacles and prebuild calls, the mesh produced by as_navmesh takes into account (as constraint edges and as excluded area) every obstacle added.", "quantifier": "all call sequences", "why_tests_cant": "history property", "anchors": ["src/input/triangulation.rs:Triangulation::prebuild", "src/input/triangulation.rs:Triangulation::add_obstacles", "src/input/triangulation.rs:Triangulation::as_layer"]}
{"id": "C34", "title": "as_layer produces a consistent layer", "statement": "For every constrained triangulation whose vertex/face incidence is consistent, the layer produced has one polygon per retained face, in-range references, vertex v lists polygon p iff p has corner v, is_corner iff v touches a non-retained face, and neighbour lists have no two equal consecutive entries.", "quantifier": "every triangulation, every acceptance predicate", "why_tests_cant": "for all triangulations", "anchors": ["src/input/triangulation.rs:Triangulation::as_layer"]}
{"id": "C35", "title": "The async path agrees with the blocking path", "statement": "On a single-layer mesh, if the point location of both ends agrees with the blocking lookup, the future returned by get_path resolves to the same result as path, whatever the poll schedule, whenever the blocking search does not exhaust its step budget.", "quantifier": "every mesh, pair of points, poll schedule", "why_tests_cant": "all schedules", "anchors": ["src/async_helpers.rs:FuturePath::poll", "src/lib.rs:Mesh::path_on_layers"]}
{"id": "C36", "title": "A pending future always arranges its wake-up", "statement": "Every poll of the future returned by get_path that returns Pending has woken its waker; hence an executor that polls on wake-up never stalls.", "quantifier": "every mesh, poll schedule", "why_tests_cant": "liveness over all schedules", "anchors": ["src/async_helpers.rs:FuturePath::poll"]}
{"id": "C37", "title": "The search explores in best-first order", "statement": "The ordering used by the queue is a total preorder (reflexive, transitive, total) that puts a smaller estimated total length first and, among equals, the larger known part first; when a path is returned its estimate is minimal among all queued nodes.", "quantifier": "all nodes, all queue contents", "why_tests_cant": "order laws on the full domain", "anchors": ["src/lib.rs:Ord for SearchNode", "src/instance.rs:SearchInstance::pop_node"]}
{"id": "C38", "title": "The heuristic never overestimates", "statement": "In exact arithmetic, the estimate used for a node is at most the length of every route from its root through its interval to the destination, hence the search estimate is admissible.", "quantifier": "all roots, intervals, goals in general position", "why_tests_cant": "for all real inputs", "anchors": ["src/helpers.rs:heuristic"]}
{"id": "C39", "title": "Geometric primitives", "statement": "side is antisymmetric under reversal of the line, mirror is an isometric involution fixing the line, on_segment accepts the end points of every segment, in exact arithmetic.", "quantifier": "all points and lines", "why_tests_cant": "for all real inputs", "anchors": ["src/helpers.rs:Vec2Helper"]}
{"id": "C40", "title": "Search settings are validated and read back", "statement": "set_search_delta rejects negative (and NaN) deltas, set_search_steps rejects 0, both leave the rest of the mesh unchanged and are read back by the getters.", "quantifier": "all values", "why_tests_cant": "for all values", "anchors": ["src/lib.rs:Mesh::set_search_delta", "src/lib.rs:Mesh::set_search_steps"]}
{"id": "C41", "title": "With detailed-layers the length is the scaled length of path_with_layers, and the shortest candidate is returned", "statement": "With feature detailed-layers, a returned path has length equal to the sum over consecutive points of path_with_layers (from the start) of the distances scaled by the layer of the first point of each pair, and no other path found during the search is shorter.", "quantifier": "every mesh, pair of points, scale", "why_tests_cant": "for all inputs", "anchors": ["src/lib.rs:Mesh::path_on_layers", "src/instance.rs:SearchInstance::next"]}
{"id": "C42", "title": "get_vertices_on_segment is exact and sorted", "statement": "Layer::get_vertices_on_segment returns exactly the indices of the vertices on the segment, each once, in order of distance from the start.", "quantifier": "every layer, segment", "why_tests_cant": "for all inputs", "anchors": ["src/layers.rs:Layer::get_vertices_on_segment"]}
{"id": "C43", "title": "Layer construction validates its input", "statement": "Layer::new / Mesh::new fail with EmptyMesh iff vertices or polygons are empty, with TooManyPolygons iff there are more than 2^24-1 polygons, and otherwise keep vertices and polygons unchanged with zero offset.", "quantifier": "all inputs", "why_tests_cant": "for all inputs", "anchors": ["src/layers.rs:Layer::new", "src/lib.rs:Mesh::new"]}
{"id": "C44", "title": "Queries do not fail on empty polygons", "statement": "A polygon list containing the documented placeholder Polygon::EMPTY can be queried: the placeholder is never found by point queries.", "quantifier": "every mesh with placeholders, baked or not", "why_tests_cant": "for all meshes", "anchors": ["src/primitives.rs:Polygon::EMPTY", "src/layers.rs:Layer::get_point_location_unit"]}
{"id": "C45", "title": "bake, unbake and offsets do not alter the geometry", "statement": "Mesh::bake and Mesh::unbake change only the precomputed data: vertices, polygons, offset, scale and search settings stay equal; unbake removes all precomputed data; bake after unbake recomputes the same data.", "quantifier": "every mesh", "why_tests_cant": "for all meshes", "anchors": ["src/layers.rs:Layer::bake", "src/layers.rs:Layer::unbake", "src/lib.rs:Mesh::bake"]}
{"id": "C46", "title": "Mesh::remove_useless_vertices cleans every layer", "statement": "After Mesh::remove_useless_vertices no layer of the mesh has a vertex that lists no polygon, and the returned value says whether any vertex was removed.", "quantifier": "every mesh with in-range polygon corners", "why_tests_cant": "over all numbers of layers and all distributions of unused vertices", "anchors": ["src/mesh_cleanup.rs:Mesh::remove_useless_vertices"]}
{"id": "C47", "title": "remove_stitches restores path finding inside a layer", "statement": "Stitching and then removing all stitches does not change the answers of queries inside layer 0 (whose references are the same stitched or not): corner flags are as before.", "quantifier": "every unstitched mesh, stitch list and query inside layer 0", "why_tests_cant": "for all meshes and queries", "anchors": ["src/stitching.rs:Mesh::remove_stitches"]}
{"id": "C48", "title": "Restitching one layer equals restitching everything", "statement": "On a stitched mesh, remove_stitches_to_layer(t), replacing layer t by a new unstitched layer, and restitch_layer_at_vertices(t, stitches) gives every vertex the same set of neighbours, and the same gap/corner rule, as building all layers afresh and stitching them all.", "quantifier": "every unstitched mesh, stitch lists that agree outside t, every t, every new layer, one_way flag", "why_tests_cant": "for all update histories", "anchors": ["src/stitching.rs:Mesh::restitch_layer_at_vertices", "src/stitching.rs:Mesh::remove_stitches_to_layer"]}
{"id": "C49", "title": "A file is accepted only with the announced numbers of vertices and polygons", "statement": "PolyanyaFile::from_bytes either panics or returns exactly the number of vertices and polygons announced on the third line.", "quantifier": "all byte sequences", "why_tests_cant": "over all inputs, including truncated and damaged files", "anchors": ["src/input/polyanya_file.rs:PolyanyaFile::from_bytes"]}
{"id": "C50", "title": "A vertex surrounded by triangles is no corner", "statement": "Mesh::try_from(Trimesh): a vertex around which the triangles close up (each shares an edge at the vertex with a next and a previous one) lists no u32::MAX and is not a corner.", "quantifier": "every valid trimesh, the sort of the standard library", "why_tests_cant": "depends on the order of triangles and the angles around the vertex", "anchors": ["src/input/trimesh.rs:TryFrom<Trimesh> for Mesh"]}
{"id": "C51", "title": "Obstacles are grown by exactly the agent radius", "statement": "Every point of the outline made around an edge of an obstacle by the inflation is at distance exactly the agent radius from that edge (exact arithmetic), with the announced number of points per corner; zero segments per corner panics.", "quantifier": "every edge, positive radius and segment count", "why_tests_cant": "over all reals", "anchors": ["src/input/triangulation.rs:round_line", "src/input/triangulation.rs:create_arc"]}
{"id": "C52", "title": "The outer edge is respected", "statement": "For every builder started from outer edges or a polygon and every sequence of calls, each polygon of the produced layer has its center inside the outer edge moved inwards according to the settings in effect at the end and also at the last prebuild, and the edges of the latter are constraint edges.", "quantifier": "all call sequences, all outlines", "why_tests_cant": "history property", "anchors": ["src/input/triangulation.rs:Triangulation::as_layer", "src/input/triangulation.rs:Triangulation::prebuild"]}
{"id": "C53", "title": "Paths stay in the walkable area", "statement": "In exact arithmetic, on a mesh of strictly convex polygons that share their edges and whose features are coarse with respect to the tolerances of the search (for instance on a grid of at most 70 x 70 cells that are not too small), every point of the polyline made of the start and the waypoints of a returned path is in some polygon of the mesh, and the polyline ends at the goal; the straight line between two waypoints crosses from polygon to polygon through shared edges only.", "quantifier": "every such mesh, single or stitched layers, every start and goal of the mesh, every blocked layer set, sync and async", "why_tests_cant": "ranges over all meshes and queries; whether a path cuts a corner depends on the geometry of every polygon crossed", "anchors": ["src/lib.rs:Mesh::path_on_layers", "src/instance.rs:SearchInstance::successors", "src/instance.rs:SearchInstance::add_node", "src/helpers.rs:turning_point", "src/helpers.rs:Vec2Helper::side"]}
{"id": "C54", "title": "Returned paths are shortest", "statement": "In exact arithmetic, on a mesh of strictly convex polygons that share their edges, without near misses with the tolerances of the search and without pinch points, when both end points are in the polygons where they are located: a returned path is a walk inside the mesh from the start to the goal, no walk inside the mesh is shorter, and the reported length is the length of this walk. If a walk exists, path returns a shortest path or has used up its step budget, and a future that resolves gives a shortest path.", "quantifier": "every such mesh (single layer or stitched), every start and goal, every tie-break of the heap", "why_tests_cant": "optimality compares the path with all other walks in the mesh, infinitely many; it depends on the pruning rules being safe for every mesh", "anchors": ["src/lib.rs:Mesh::path", "src/async_helpers.rs:FuturePath", "src/instance.rs:SearchInstance::next", "src/instance.rs:SearchInstance::successors", "src/instance.rs:SearchInstance::edges_between", "src/instance.rs:SearchInstance::add_node", "src/helpers.rs:heuristic"]}
{"id": "C55", "title": "A search ends, and finds a path when there is one", "statement": "If the start and the goal are in the mesh and there is a walk inside the mesh from one to the other, then a future for the path resolves after finitely many polls, with a path.", "quantifier": "every mesh of convex polygons that share their edges, every start and goal, every tie-break of the heap", "why_tests_cant": "termination and completeness for all meshes and queries; a search that does not end depends on where exactly the start lies", "anchors": ["src/async_helpers.rs:FuturePath", "src/lib.rs:Mesh::path_on_layers", "src/instance.rs:SearchInstance::successors", "src/instance.rs:SearchInstance::add_node"]}
{"id": "C56", "title": "A search whose bends are not enclosed ends, with a shortest path when there is a way", "statement": "In exact arithmetic, on a mesh of strictly convex polygons that share their edges, without near misses with the tolerances and without pinch points, if neither the start nor any corner at which paths can bend is enclosed by walkable area (a wall ends at each such corner): a get_path future resolves after finitely many polls; if there is a walk inside the mesh from the start to the goal it resolves with a shortest one.", "quantifier": "every such mesh, every start and goal, every heap that pops a maximum with any tie-break, every bounding volume hierarchy that is complete", "why_tests_cant": "termination and completeness for all meshes and queries; the number of polls has no bound known in advance", "anchors": ["src/async_helpers.rs:FuturePath", "src/instance.rs:SearchInstance::next", "src/instance.rs:SearchInstance::successors", "src/instance.rs:SearchInstance::add_node", "src/lib.rs:Mesh::get_point_location"]}
{"id": "C57", "title": "Without near misses lengths are exact and estimates never too large", "statement": "In exact arithmetic, on a mesh of strictly convex polygons that share their edges and without near misses with the tolerances: the reported length of every returned path is exactly the length of its polyline, hence at least the distance between the two points, and the estimate with which the search orders its nodes is at most the length of every continuation to the goal.", "quantifier": "every such mesh, start, goal, choice of blocked layers, heap, and every node the search ever creates; blocking queries and futures", "why_tests_cant": "must hold for every mesh and query, and for every intermediate node of the search", "anchors": ["src/lib.rs:Mesh::path_on_layers", "src/instance.rs:SearchInstance::next", "src/instance.rs:SearchInstance::add_node", "src/helpers.rs:heuristic", "src/async_helpers.rs:FuturePath"]}
{"id": "C59", "title": "Blocking layers is the same as removing them", "statement": "Querying with blocked layers gives exactly the result (path, length, absence of path or panic) of querying without blocked layers on the mesh in which no vertex lists a polygon of these layers and vertices that thereby touch the outside are corners. In particular, where paths are shortest (C54), a path found with blocked layers is a shortest one among all that do not enter a blocked layer.", "quantifier": "every mesh in which an edge has at most one polygon on the other side, every start and destination, every set of blocked layers, every heap, every arithmetic", "why_tests_cant": "equality of two programs for all meshes, queries and blocked sets; optimality over infinitely many competing paths", "anchors": ["src/lib.rs:Mesh::path_on_layers", "src/instance.rs:SearchInstance::setup", "src/instance.rs:SearchInstance::successors", "src/instance.rs:SearchInstance::add_node"]}
{"id": "C58", "title": "On several layers futures and blocking queries agree, unless islands are baked", "statement": "On a mesh with any number of layers of which none has baked islands: if a future of get_path resolves within the budget of path, path returns the same; every path that path returns is the only result of the future; and if the future resolves to no path then path returns none. With islands baked before stitching this fails: path finds a way where the future reports none.", "quantifier": "every mesh, start, destination, heap, arithmetic, and every history of polls", "why_tests_cant": "agreement of two programs for all meshes, queries and polling histories", "anchors": ["src/async_helpers.rs:FuturePath::poll", "src/lib.rs:Mesh::path_on_layers", "src/lib.rs:Mesh::get_path"]}
{"id": "C60", "title": "Closest point methods of a layer return the first sample that hits", "statement": "Layer::get_closest_point(point, delta, steps) returns the first sample, ring by ring for the rings 0..=steps, that lies in a polygon of the layer, and None only if no sample does; in exact arithmetic its distance from the point is ring*delta, and a point of the layer is returned unchanged. Layer::get_closest_point_towards does the same for the points point + k*delta*direction with k < steps. For a layer asked for by number, Mesh::get_closest_point gives the same point moved by the layer offset.", "quantifier": "every layer, baked or not, every point, delta and number of steps", "why_tests_cant": "for all inputs; None must mean that no sample hits", "anchors": ["src/layers.rs:Layer::get_closest_point", "src/layers.rs:Layer::get_closest_point_towards", "src/layers.rs:Layer::get_closest_point_inner"]}
{"id": "C61", "title": "Path lengths are a distance", "statement": "On a navigable mesh the lengths of the paths returned by Mesh::path behave like a distance: without one-way stitches the way back exists and is as long as the way there; a path over a third point is never shorter than the direct path, and exists only if the direct path does; the length is zero only if start and goal coincide; and what remains of a path at any of its corners is a shortest path from there.", "quantifier": "every navigable mesh, every start, goal and intermediate point", "why_tests_cant": "relates the results of several queries for all meshes and all points", "anchors": ["src/lib.rs:Mesh::path", "src/instance.rs:SearchInstance::next"]}
{"id": "C62", "title": "Vertex numbering is irrelevant", "statement": "Two meshes whose polygons go through the same corners (same positions, neighbours and corner flags) give the same answer to every path query, point location, closest point search, future and baking, however their vertices are numbered and whatever vertices are in no polygon; in particular remove_useless_vertices never changes an answer.", "quantifier": "every mesh, every renumbering of the vertices of each layer, every query, any scalar arithmetic", "why_tests_cant": "relates two runs of the search for all meshes and all renumberings", "anchors": ["src/mesh_cleanup.rs:Layer::remove_useless_vertices", "src/lib.rs:Mesh::path_on_layers", "src/instance.rs:SearchInstance::next", "src/layers.rs:Layer::bake"]}
{"id": "C63", "title": "Merging preserves the walkable area", "statement": "merge_polygons, called once or in the loop `while mesh.merge_polygons() {}`, leaves the set of points covered by each layer unchanged: each polygon of the result is convex and covers exactly the points of the polygons merged into it; on a proper tiling the loop ends without a panic and gives a proper tiling of the same area, with the same vertices and offsets.", "quantifier": "every layer of convex polygons with correct neighbour lists and matching edges (loop: every mesh of proper tilings: convex, not overlapping, no vertex inside an edge), every order of areas, every convexity test that accepts only convex rings, every point of the plane, any number of rounds", "why_tests_cant": "an equality of infinite sets of points for all meshes and all merge sequences", "anchors": ["src/merger.rs:Layer::merge_polygons", "src/merger.rs:Mesh::merge_polygons"]}
{"id": "C64", "title": "Merging changes neither where one can walk nor how long paths are", "statement": "On a one-layer mesh that is a proper tiling, any number of calls of merge_polygons leaves the possible walks unchanged: a polyline can be walked in the merged mesh between two points exactly if it can be walked in the mesh before. So the shortest walks have the same lengths, and path returns a path of the same length before and after merging.", "quantifier": "every one-layer mesh of real coordinates that is a proper tiling, every convexity test that accepts only convex rings, any number of rounds, every pair of points, every polyline; path lengths: every query in the scope of exact path finding in both meshes, every heap and bvh that keep their contracts", "why_tests_cant": "an equality of infinite sets of walks, and of optimal lengths, over all meshes and all merge sequences", "anchors": ["src/merger.rs:Layer::merge_polygons", "src/lib.rs:Mesh::path"]}
{"id": "C65", "title": "Moving everything moves the answers", "statement": "Add the same vector to the offset of every layer and to the query points: path queries, path_on_layers, futures and the searches for a close point give the same answers, moved by that vector, with the same lengths and the same polygons; point location gives the same polygons; baking before or after the move is the same. With detailed-layers this needs the default scale.", "quantifier": "every mesh, query, blocked layers, bvh, finite vector; every heap that looks at costs only; in exact arithmetic, or wherever adding the vector is exact", "why_tests_cant": "a relation between two runs for all meshes, queries and vectors", "anchors": ["src/lib.rs:Mesh::path", "src/lib.rs:Mesh::path_on_layers", "src/instance.rs:SearchInstance", "src/layers.rs:Layer::offset", "src/async_helpers.rs:FuturePath::poll"]}
{"id": "C66", "title": "An offset is the same as moved vertices", "statement": "Answers depend on where the vertices of a layer are in the world, not on how the place is divided between vertex coordinates and layer offset: adding a vector to the coordinates of the vertices of a layer and subtracting it from its offset changes no path, no location and no future. In particular an offset can be replaced by moved vertices.", "quantifier": "every mesh without dangling vertex indices, a vector for each layer, every query, features and scales; in exact arithmetic, or wherever the change of coordinates is exact", "why_tests_cant": "a relation between two runs for all meshes, queries and vectors", "anchors": ["src/layers.rs:Layer::offset", "src/lib.rs:Mesh::get_point_location", "src/instance.rs:SearchInstance"]}
{"id": "C67", "title": "path_with_layers says in which layer every piece of the path is", "statement": "With detailed-layers, path_with_layers lists the waypoints of path, in order, with the layer that is entered there, and between them the points where the path passes from one layer to another, with the layer it enters; entries closer than 1/100 to the next entry may be left out. Every piece of the path between two entries lies in polygons of the layer announced by the first of them (the layer of the start, before the first entry).", "quantifier": "every conforming mesh of any number of stitched layers, every query with no near miss, every choice of blocked layers, of tie-breaks of the heap, and of the search tree; paths whose legs do not run along an edge where layers meet; synchronous and asynchronous", "why_tests_cant": "ranges over all meshes and queries; the entries are computed from marks collected over the whole run", "anchors": ["src/instance.rs:SearchInstance::next", "src/instance.rs:SearchInstance::add_node", "src/lib.rs:Path::path_with_layers"]}
{"id": "C68", "title": "A builder started from a layer of a mesh keeps to that layer", "statement": "Triangulation::from_mesh(mesh, i) takes layer i of the mesh (and panics if there is none). Whatever is then called on the builder, the layer made by as_layer has all edges of the polygons of layer i as constraint edges of its triangulation, and its polygons are exactly the triangles whose center is located on layer i and outside of all (grown, simplified) obstacles; as_navmesh makes a mesh of only this layer. With a radius on the outer edge the call panics, as there is no outer edge.", "quantifier": "every mesh, layer number, sequence of builder calls, obstacles and settings", "why_tests_cant": "ranges over all meshes and all call sequences; the edges already added are remembered over the whole loop", "anchors": ["src/input/triangulation.rs:Triangulation::from_mesh", "src/input/triangulation.rs:Triangulation::from_mesh_layer", "src/input/triangulation.rs:Triangulation::as_layer", "src/input/triangulation.rs:Triangulation::as_navmesh"]}
{"id": "C69", "title": "Numbering of polygons and division into layers are irrelevant", "statement": "Two meshes that consist of the same polygons (same corners in the same order, same one-way flags, corners listing the same neighbours), however the polygons and the vertices are numbered and however the polygons are divided into stitched layers, give the same answer to a path query between corresponding polygons: the same path and length, no path in both, or the same fault. Blocked layers may be used when they block the same polygons. Futures resolve to the same answers.", "quantifier": "every pair of such meshes, every query, every heap that compares costs only, every arithmetic, every history of polls; with detailed-layers, polygons keep their layers; islands baked or not (futures: not baked)", "why_tests_cant": "equality of two runs for all meshes and all renumberings", "anchors": ["src/lib.rs:Mesh::path_on_layers", "src/instance.rs:SearchInstance", "src/instance.rs:U32Layer", "src/async_helpers.rs:FuturePath::poll"]}
{"id": "C70", "title": "The reported length is a number and not negative", "statement": "The length of a returned path is never NaN and never negative, for end points with finite coordinates, whatever the vertices of the mesh are (infinite or NaN coordinates included), and in spite of rounding. The same holds for the answer of a future.", "quantifier": "every mesh, every query between points with finite coordinates, every blocked set, every heap and index, every arithmetic with IEEE's laws for NaN and signs (binary32 in particular); without detailed-layers", "why_tests_cant": "all meshes with all kinds of coordinates, and all roundings", "anchors": ["src/lib.rs:Mesh::path_on_layers", "src/instance.rs:SearchInstance::add_node", "src/helpers.rs:heuristic", "src/async_helpers.rs:FuturePath::poll"]}
{"id": "C71", "title": "With f32 numbers, points on a grid are located exactly", "statement": "In a mesh of strictly convex polygons whose vertices, layer offsets and query point have coordinates that are multiples of a power of two (at least 1/64) and at most 1024 such units from the origin, rounding of f32 does not matter for point location: get_closest_point returns a point of the mesh unchanged with a polygon that contains it, point_in_mesh says true for it, path queries start and end in polygons that contain the end points, and with one search step a point outside is not found.", "quantifier": "every such mesh, every point on the grid, every complete index, every layer restriction; IEEE binary32 arithmetic with rounding", "why_tests_cant": "rounding in all combinations of coordinates", "anchors": ["src/layers.rs:Layer::point_in_polygon", "src/layers.rs:Layer::bake_polygon_finder", "src/helpers.rs:Vec2Helper::side", "src/helpers.rs:Vec2Helper::on_segment", "src/lib.rs:Mesh::get_closest_point", "src/lib.rs:Mesh::point_in_mesh"]}
{"id": "C72", "title": "Every file in the documented format is read as documented", "statement": "PolyanyaFile::from_bytes reads every text in the format of meshes/format.txt (one object per line, single spaces, lines ended by LF or CRLF, the last line with or without end): the vertices in order with their coordinates and neighbours, -1 as no polygon, corners exactly those with a gap around them; the polygons in order with their corners, one-way exactly those with at most one neighbour. Any other ASCII text is read only if its lines are such lines, and panics otherwise: a wrong or signed count, a word that is not a number, an empty line.", "quantifier": "every sequence of ASCII lines, every number of objects, every number of words, both line ends", "why_tests_cant": "unboundedly many texts, and the negative half is about all other texts", "anchors": ["src/input/polyanya_file.rs:PolyanyaFile::from_bytes", "src/primitives.rs:Polygon::using", "src/primitives.rs:Vertex::new", "meshes/format.txt"]}
{"id": "C73", "title": "Saving and loading keeps f32 coordinates to a millionth, and exactly above 16", "statement": "A file whose coordinates are finite f32 numbers can be written with to_bytes and read with from_bytes; each coordinate read differs by at most 1/1000000 from the one written, and is the same f32 if its magnitude is above 16 or if it is a multiple of a millionth. Saving and loading again changes nothing: the second generation is identical to the first.", "quantifier": "every file with finite f32 coordinates, fewer than 2^31 vertices and polygons, and polygons with at least one corner", "why_tests_cant": "all 2^32 coordinates in all files; rounding twice (binary to decimal to binary) has rare bad cases", "anchors": ["src/input/polyanya_file.rs:PolyanyaFile::to_bytes", "src/input/polyanya_file.rs:PolyanyaFile::from_bytes"]}
{"id": "C74", "title": "Closing ways never shortens a path, opening ways never loses it", "statement": "If one mesh is another with some polygons removed or some edges made impassable, then between the same points its path is at least as long; and where it has a path, the other mesh has one too, unless its steps are used up. In particular: blocking more layers never makes a path shorter, blocking fewer never makes it disappear, and stitching the same layers one way or by a part of the list gives a mesh in which everything that can be walked can be walked in the fully stitched one.", "quantifier": "every pair of meshes in the scope of exact path finding, every pair of lists of blocked layers, every stitch list, every pair of points", "why_tests_cant": "compares two searches over all meshes and all end points", "anchors": ["src/lib.rs:Mesh::path", "src/lib.rs:Mesh::path_on_layers", "src/stitching.rs:Mesh::stitch_at_vertices"]}
{"id": "C75", "title": "With f32 numbers, reported lengths are accurate up to rounding", "statement": "Computed with f32, a finite distance differs from the exact distance of the two points only by rounding (4 * 2^-23 relative, 2^-72 absolute). With detailed-layers, a finite reported length is the exact length of path_with_layers up to rounding: with k legs, (k + 3) * 2^-23 relative and k * 2^-72 absolute; if all scales are 1 this is the plain length of the polyline. With default features, the reported length of a path inside a polygon is the exact distance up to rounding, and that of another path is, up to rounding, at least the exact length of the returned polyline without its last leg.", "quantifier": "every mesh of f32 numbers, every pair of points with finite coordinates, every list of blocked layers, every feature set, every tie-break of the heap", "why_tests_cant": "bounds the accumulated rounding errors for all inputs and all numbers of legs", "anchors": ["src/instance.rs:SearchInstance::add_node", "src/instance.rs:SearchInstance::next", "src/helpers.rs:heuristic", "src/lib.rs:Mesh::path_on_layers"]}
{"id": "C76", "title": "With detailed-layers and the default scales, paths are still shortest", "statement": "In exact arithmetic, with the feature detailed-layers, on a mesh whose layers all have the default scale and under the conditions of C54: a path returned by path is a walk inside the mesh, and its reported length is at least the straight distance and at most the length of every walk between the two points; a future gives a path along a shortest walk; if there is a walk, a path is found (or the step budget of path is used up). If in addition no two different points that may be listed in path_with_layers are closer than 1/100, the returned path is a shortest walk, the reported length is its length, and both builds report the same length.", "quantifier": "every such mesh with any number of layers, every start and goal, every heap that pops a maximum with any tie-break, every index", "why_tests_cant": "optimality among infinitely many walks, for all meshes and queries", "anchors": ["src/instance.rs:SearchInstance::add_node", "src/instance.rs:SearchInstance::next", "src/lib.rs:Mesh::path_on_layers", "src/async_helpers.rs:FuturePath::poll"]}
{"id": "C77", "title": "Which points count as in the mesh", "statement": "In exact arithmetic, point_in_mesh(p) holds exactly if p or one of its eight neighbours (p moved by search_delta to the left or right, up or down, or both) lies in a polygon of an allowed layer; get_point_layer lists exactly the allowed layers for which this is so, each with a polygon that contains one of the nine points.", "quantifier": "every conforming mesh with any number of layers, baked or not, every search_delta, every point none of whose nine places is nearly but not exactly on the line of an edge, every requested layer", "why_tests_cant": "an equivalence for all points and all meshes", "anchors": ["src/layers.rs:Layer::get_point_location", "src/lib.rs:Mesh::get_point_locations", "src/lib.rs:Mesh::point_in_mesh", "src/lib.rs:Mesh::get_point_layer", "src/lib.rs:Mesh::set_search_delta"]}
{"id": "C78", "title": "Whatever sequence of operations made a mesh, it can be queried without panic", "statement": "Start from layers made by Mesh::new with consistent data, from a triangle mesh or from a triangulation. After any sequence of merge_polygons, remove_useless_vertices, bake, unbake, changes of offset and scale, set_search_delta, set_search_steps, stitch_at_vertices or stitch_at_points, remove_stitches, and remove_stitches_to_layer followed by replacing and restitching the layer (merging and stitching only layers that are not stitched), point queries return normally; if the mesh is stitched or has one layer, all its references are in range, and path queries and futures return normally. Cleaning, stitching at existing vertices and restitching always return. Baking stitched layers never returns, and path queries on several layers that are not stitched may panic.", "quantifier": "every history of operations, every mesh, every query, every arithmetic satisfying the NaN laws, both builds", "why_tests_cant": "an invariant over all histories of operations", "anchors": ["src/lib.rs:Mesh", "src/layers.rs:Layer::bake", "src/merger.rs:Mesh::merge_polygons", "src/mesh_cleanup.rs:Mesh::remove_useless_vertices", "src/stitching.rs:Mesh::stitch_at_vertices", "src/stitching.rs:Mesh::remove_stitches", "src/stitching.rs:Mesh::remove_stitches_to_layer", "src/stitching.rs:Mesh::restitch_layer_at_vertices", "src/lib.rs:Mesh::path_on_layers"]}
{"id": "C79", "title": "The order in which vertices list their polygons is irrelevant", "statement": "If at most one other polygon is listed at both ends of each edge, then the answer of a path query does not depend on the order in which vertices list their polygons, nor on how often, nor (without blocked layers) on whether the outside is listed: two meshes whose corners list the same polygons and have the same corner flags give the same path and length, no path in both, or the same fault. In particular reorder_neighbors, and stitching followed by remove_stitches (for queries within layer 0), change no answer when they change no corner flag. Futures resolve to the same answers.", "quantifier": "every pair of such meshes, every query, every heap that compares costs only, every arithmetic, every order, every history of polls; both builds", "why_tests_cant": "equality of two runs for all meshes and all orders of all lists", "anchors": ["src/instance.rs:SearchInstance::setup", "src/instance.rs:SearchInstance::add_successors", "src/mesh_cleanup.rs:Mesh::reorder_neighbors", "src/stitching.rs:Mesh::stitch_at_vertices", "src/stitching.rs:Mesh::remove_stitches", "src/lib.rs:Mesh::path_on_layers"]}
{"id": "C80", "title": "All layers stitched along an edge can be entered", "statement": "When several layers are stitched along the same edge of a layer, a path query from that layer can reach each of them.", "quantifier": "every mesh, every list of stitches, every query", "why_tests_cant": "reachability in all stitched meshes", "anchors": ["src/instance.rs:SearchInstance::add_successors", "src/instance.rs:SearchInstance::setup", "src/stitching.rs:Mesh::stitch_at_vertices"]}
{"id": "C81", "title": "Stitches can be added and changed", "statement": "Stitching in several calls, or stitching again after removing all stitches, gives the connections, and the answers to queries, of stitching once with the whole (new) list.", "quantifier": "every mesh of unstitched layers, every two lists of stitches, one way or not, every query", "why_tests_cant": "compares two histories of operations for all meshes and all lists of stitches", "anchors": ["src/stitching.rs:Mesh::stitch_internals", "src/stitching.rs:Mesh::stitch_at_vertices", "src/stitching.rs:Mesh::remove_stitches", "src/mesh_cleanup.rs:Mesh::reorder_neighbors_ccw_and_fix_corners"]}
{"id": "C82", "title": "get_closest_point looks in circles, in all directions", "statement": "get_closest_point searches whole circles around the query: whether a part of the mesh within reach is found depends on its distance and width, not on the direction in which it lies; in particular path queries from points just outside the mesh behave alike on all sides.", "quantifier": "every mesh, every query point, every delta and number of steps", "why_tests_cant": "ranges over all positions of the query and of the mesh around it", "anchors": ["src/lib.rs:Mesh::get_closest_point", "src/layers.rs:Layer::get_closest_point_inner"]}
{"id": "C83", "title": "point_in_mesh, path and get_path accept the same points", "statement": "A point is accepted as an end of a path by path exactly when it is by get_path, and exactly when point_in_mesh is true of it, and the polygon from which the two start is the same.", "quantifier": "every mesh with any number of layers, every point, delta and number of steps", "why_tests_cant": "agreement of two search procedures at all points", "anchors": ["src/lib.rs:Mesh::point_in_mesh", "src/lib.rs:Mesh::get_point_location", "src/lib.rs:Mesh::get_closest_point", "src/layers.rs:Layer::get_point_location", "src/async_helpers.rs:FuturePath::poll"]}
{"id": "C84", "title": "simplify simplifies the outer edge and the obstacles", "statement": "Triangulation::simplify(epsilon) applies the simplification of the geometry library to the outer edge and to every obstacle added so far, and changes nothing else.", "quantifier": "every builder, every history of calls, every outline, obstacles and tolerance", "why_tests_cant": "ranges over all histories of calls and all outlines", "anchors": ["src/input/triangulation.rs:Triangulation::simplify", "src/input/triangulation.rs:Triangulation::as_layer"]}
{"id": "C85", "title": "The closest-point searches reach delta * steps", "statement": "Mesh::get_closest_point and get_closest_point_towards search up to search_delta * search_steps from the query, and the methods of Layer up to delta * steps, as documented: they return no point further away, and a part of the mesh that the outermost ring (or the last step towards the target) meets is found.", "quantifier": "every mesh, every query, every delta and number of steps, exact arithmetic", "why_tests_cant": "ranges over all meshes, queries and settings", "anchors": ["src/lib.rs:Mesh::get_closest_point", "src/lib.rs:Mesh::get_closest_point_towards", "src/layers.rs:Layer::get_closest_point", "src/layers.rs:Layer::get_closest_point_towards"]}
{"id": "C86", "title": "Turning everything turns the answers", "statement": "When every vertex, every layer offset and both query points are turned about the origin by the same angle, and the endpoints are found in the same polygons, Mesh::path and path_on_layers return the turned path: the same length, the same bends turned, the same layers; there is a path in one mesh iff there is one in the other. Futures resolve to the turned answers. A quarter turn also keeps point_in_mesh.", "quantifier": "every mesh, every pair of points, every set of blocked layers, every angle; exact arithmetic", "why_tests_cant": "relates two runs of the search on different inputs, for all meshes, queries and angles", "anchors": ["src/lib.rs:Mesh::path_on_layers", "src/lib.rs:Mesh::point_in_mesh", "src/instance.rs:SearchInstance", "src/helpers.rs:Vec2Helper", "src/async_helpers.rs:FuturePath"]}
{"id": "C87", "title": "Baking with f32 numbers never changes which points are found", "statement": "With the f32 numbers the library computes with, point_in_mesh gives the same answer before and after Mesh::bake, Mesh::new (which bakes) and Mesh::unbake.", "quantifier": "every mesh, every query point, every arithmetic", "why_tests_cant": "the two finders agree on all ordinary inputs; the difference needs a rounding error in three side tests at once", "anchors": ["src/layers.rs:Layer::get_point_location_unit_baked", "src/layers.rs:Layer::get_point_location_unit", "src/layers.rs:Layer::bake_polygon_finder", "src/lib.rs:Mesh::unbake", "src/lib.rs:Mesh::point_in_mesh"]}
{"id": "C88", "title": "Parts of a mesh that cannot be reached do not matter", "statement": "When two meshes contain the same part, out of which nothing leads, and both ends of a query are found in this part: Mesh::path and path_on_layers never give different paths, a path found in one is found in the other if that one has no fewer polygons, and futures resolve to the same answers. In particular, layers that are not stitched do not matter, whatever is in them.", "quantifier": "every pair of meshes, every common part, every pair of points in it, every set of blocked layers, every arithmetic", "why_tests_cant": "relates the searches in two arbitrary meshes, step by step", "anchors": ["src/lib.rs:Mesh::path_on_layers", "src/instance.rs:SearchInstance::successors", "src/async_helpers.rs:FuturePath", "src/lib.rs:Mesh"]}
{"id": "C89", "title": "path finds a path whenever a future does", "statement": "When the future returned by get_path resolves to a path, Mesh::path returns this path for the same points.", "quantifier": "every mesh, every pair of points", "why_tests_cant": "path stops after ten steps for every polygon of the mesh; whether this is enough depends on the whole mesh", "anchors": ["src/lib.rs:Mesh::path_on_layers", "src/async_helpers.rs:FuturePath::poll"]}
{"id": "C90", "title": "The unit of length does not matter", "statement": "When all coordinates of the mesh and of the query points, and search_delta, are given in another unit of length, the same points are in the mesh, the same paths are found, and their lengths are multiplied by the factor between the units.", "quantifier": "every mesh, every pair of points, every positive factor", "why_tests_cant": "relates the queries in two meshes, for every mesh and every factor", "anchors": ["src/helpers.rs:Vec2Helper::side", "src/layers.rs:Layer::point_in_polygon", "src/lib.rs:Mesh::path", "src/instance.rs:SearchInstance::edges_between"]}
