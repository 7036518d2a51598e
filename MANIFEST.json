{
 "claims": [
  {
   "property": "C01",
   "status": "proved",
   "theorems": [
    "Polyanya.C01_path_ends_at_destination",
    "Polyanya.C01_future_ends_at_destination"
   ],
   "note": "every arithmetic, BVH, queue tie-break"
  },
  {
   "property": "C02",
   "status": "proved",
   "theorems": [
    "Polyanya.C02_path_has_corridor",
    "Polyanya.C02_future_has_corridor",
    "Polyanya.C02_no_path_when_disconnected"
   ],
   "note": "needs < 2^24 polygons per layer (enforced by Layer::new) and the NaN laws of IEEE arithmetic"
  },
  {
   "property": "C03",
   "status": "proved",
   "theorems": [
    "Polyanya.C03_blocked_layers_not_entered",
    "Polyanya.C03_blocked_destination"
   ],
   "note": ""
  },
  {
   "property": "C04",
   "status": "proved",
   "theorems": [
    "Polyanya.C04_dead_ends_only_as_destination",
    "Polyanya.C04_future_dead_ends"
   ],
   "note": ""
  },
  {
   "property": "C05",
   "status": "proved",
   "theorems": [
    "Polyanya.C05_waypoints_are_corners",
    "Polyanya.C05_last_bend"
   ],
   "note": ""
  },
  {
   "property": "C06",
   "status": "partial",
   "theorems": [
    "Polyanya.C06_length_partial",
    "Polyanya.C06_future_length_partial",
    "Polyanya.C06_C07_false",
    "Polyanya.C06_C07_false_f32"
   ],
   "note": "exact arithmetic, default features: exact when both ends share a polygon or the last leg is outside the 1e-4 tolerance bands; false in general (witness C06_C07_false: reported length 0 for points 0.1 apart). The counterexample exists also with binary32 rounding (C06_C07_false_f32)"
  },
  {
   "property": "C07",
   "status": "partial",
   "theorems": [
    "Polyanya.C07_length_partial",
    "Polyanya.C06_C07_false",
    "Polyanya.C06_C07_false_f32"
   ],
   "note": "exact arithmetic, default features: holds unless last bend and destination are on different sides of the last interval and both inside its tolerance band; there a bound with error 2e-4/width; false in general (witness). The counterexample exists also with binary32 rounding (C06_C07_false_f32)"
  },
  {
   "property": "C08",
   "status": "proved",
   "theorems": [
    "Polyanya.C08_same_polygon"
   ],
   "note": ""
  },
  {
   "property": "C09",
   "status": "proved",
   "theorems": [
    "Polyanya.C09_path_terminates",
    "Polyanya.C09_poll_terminates",
    "Polyanya.C09_chain_bounded",
    "Polyanya.C09_chain_bounded_applies"
   ],
   "note": "outer loop is bounded by 10*polygons pops by construction of the code; the only unbounded loop (successors) never runs out of fuel"
  },
  {
   "property": "C10",
   "status": "proved",
   "theorems": [
    "Polyanya.C10_path",
    "Polyanya.C10_poll",
    "Polyanya.C10_point_queries"
   ],
   "note": "on well-formed meshes (Mesh.WF), squared distances between vertices not NaN; with detailed-layers lengths of paths between the located polygons must not be NaN"
  },
  {
   "property": "C11",
   "status": "partial",
   "theorems": [
    "Polyanya.C11_point_queries",
    "Polyanya.C11_path_partial",
    "Polyanya.C11_false"
   ],
   "note": "the property is false of the code: guard `>` instead of `>=` in edges_between; proved for all meshes without that boundary index"
  },
  {
   "property": "C12",
   "status": "proved",
   "theorems": [
    "Polyanya.C12_islands_do_not_change_results",
    "Polyanya.C12_forget_islands"
   ],
   "note": "well-formed, consistent single-layer mesh (false without consistency)"
  },
  {
   "property": "C13",
   "status": "proved",
   "theorems": [
    "Polyanya.C13_islands_are_components"
   ],
   "note": ""
  },
  {
   "property": "C14",
   "status": "proved",
   "theorems": [
    "Polyanya.C14_finder_agrees",
    "Polyanya.C14_point_in_mesh"
   ],
   "note": "over the reals (exact arithmetic); the external bvh2d is a contract (Bvh.Complete)"
  },
  {
   "property": "C15",
   "status": "proved",
   "theorems": [
    "Polyanya.C15_point_layer",
    "Polyanya.C15_point_in_mesh",
    "Polyanya.C15_out_of_range",
    "Polyanya.C15_out_of_range_panics"
   ],
   "note": ""
  },
  {
   "property": "C16",
   "status": "proved",
   "theorems": [
    "Polyanya.C16_closest_point",
    "Polyanya.C16_none",
    "Polyanya.C16_distance",
    "Polyanya.C16_inside_unchanged"
   ],
   "note": "distance and inside-unchanged over the reals (exact arithmetic); the rest for every scalar type"
  },
  {
   "property": "C17",
   "status": "proved",
   "theorems": [
    "Polyanya.C17_towards",
    "Polyanya.C17_none",
    "Polyanya.C17_distance"
   ],
   "note": "distance over the reals (exact arithmetic); the rest for every scalar type"
  },
  {
   "property": "C18",
   "status": "proved",
   "theorems": [
    "Polyanya.C18_roundtrip",
    "Polyanya.C18_surjective",
    "Polyanya.C18_injective",
    "Polyanya.C18_not_max"
   ],
   "note": ""
  },
  {
   "property": "C19",
   "status": "proved",
   "theorems": [
    "Polyanya.C19_round_trip"
   ],
   "note": "every unstitched mesh of at most 256 layers, every stitch list between existing vertices of different layers, one way or not, every sort that orders by key"
  },
  {
   "property": "C20",
   "status": "proved",
   "theorems": [
    "Polyanya.C20_stitch"
   ],
   "note": "exact characterisation of the references listed by every vertex after stitching; also: succeeds, and corner flag iff gap"
  },
  {
   "property": "C21",
   "status": "proved",
   "theorems": [
    "Polyanya.C21_find",
    "Polyanya.C21_stitch_at_points",
    "Polyanya.C21_found_points",
    "Polyanya.C21_missing_panics"
   ],
   "note": "EqLaws (symmetry of ==, and x==y implies x==x) is needed only for C21_found_points"
  },
  {
   "property": "C22",
   "status": "proved",
   "theorems": [
    "Polyanya.C22_remove_to"
   ],
   "note": "every mesh of at most 256 layers"
  },
  {
   "property": "C23",
   "status": "proved",
   "theorems": [
    "Polyanya.C23_reorder"
   ],
   "note": "every mesh with references in range, every sort that orders by key; also says where the gaps are (Reordered.gaps)"
  },
  {
   "property": "C24",
   "status": "proved",
   "theorems": [
    "Polyanya.C24_layer_progress",
    "Polyanya.C24_mesh_progress",
    "Polyanya.C24_loop_ends"
   ],
   "note": "every layer, mesh and convexity test; also no infinite recursion in union-find"
  },
  {
   "property": "C25",
   "status": "proved",
   "theorems": [
    "Polyanya.C25_references",
    "Polyanya.C25_consistent",
    "Polyanya.C25_no_panic",
    "Polyanya.C25_needs_strict_convexity"
   ],
   "note": "references part: every layer and test; consistency part: conforming layers and tests that reject rings visiting a point twice (C25_needs_strict_convexity shows that a purely local test does not suffice)"
  },
  {
   "property": "C26",
   "status": "proved",
   "theorems": [
    "Polyanya.C26_total_area",
    "Polyanya.C25_consistent"
   ],
   "note": "exact areas for any interpretation of the coordinates as reals; same hypotheses as C25; the boundary part is IsUnion.edges in C25_consistent"
  },
  {
   "property": "C27",
   "status": "proved",
   "theorems": [
    "Polyanya.C27_union_find",
    "Polyanya.C27_compression"
   ],
   "note": ""
  },
  {
   "property": "C28",
   "status": "proved",
   "theorems": [
    "Polyanya.C28_layer",
    "Polyanya.C28_idempotent",
    "Polyanya.C28_panic"
   ],
   "note": "one layer; out-of-range corners panic"
  },
  {
   "property": "C29",
   "status": "proved",
   "theorems": [
    "Polyanya.C29_round_trip",
    "Polyanya.C29_empty_polygon",
    "Polyanya.C29_mesh",
    "Polyanya.C29_of_mesh"
   ],
   "note": "on bytes, including UTF-8 check, line splitting and integer parsing; float formatting/parsing are abstract, with the hypothesis PrintableFile per number (met by the instance for Rat, with sixDecimals_close, and for binary32 by C73). An empty neighbour list is read back as [u32::MAX] and an empty polygon makes reading panic, as stated in the theorems"
  },
  {
   "property": "C30",
   "status": "proved",
   "theorems": [
    "Polyanya.C30_using",
    "Polyanya.C30_corner"
   ],
   "note": "every n and every list of numbers"
  },
  {
   "property": "C31",
   "status": "proved",
   "theorems": [
    "Polyanya.C31_trimesh",
    "Polyanya.C31_counterclockwise",
    "Polyanya.C31_no_corner_missed"
   ],
   "note": "every valid trimesh, every permutation the sort may produce (or its panic, since the comparison is no total order); counterclockwise order where the triangles lie on one side (the sort is assumed to sort orders); no corner is missed"
  },
  {
   "property": "C32",
   "status": "proved",
   "theorems": [
    "Polyanya.C32_settings"
   ],
   "note": "every sequence of builder calls; also: two histories that agree on the calls other than setters, and on the settings in effect at each of them and at the end, build the same layer. Needs ZeroIsSmall: not (1e-5 < 0)"
  },
  {
   "property": "C33",
   "status": "partial",
   "theorems": [
    "Polyanya.C33_obstacles_partial",
    "Polyanya.C33_area_partial",
    "Polyanya.C33_false"
   ],
   "note": "FALSE of the code as stated (C33_false): a second prebuild drops the constraint edges of obstacles added before the first one, and the produced mesh covers part of the obstacle. Proved: every obstacle always stays excluded (no retained face has its center in the grown obstacle), and is constrained if there is a base layer or at most one later prebuild; then (contract Separates of spade/geo) no point of a retained face is inside it"
  },
  {
   "property": "C34",
   "status": "proved",
   "theorems": [
    "Polyanya.C34_layer",
    "Polyanya.C34_consistent"
   ],
   "note": "every triangulation with consistent incidence, every acceptance predicate that does not panic; the layer is Consistent (hypothesis of the search theorems) if it has at most 2^24-1 polygons, which as_layer does not check"
  },
  {
   "property": "C35",
   "status": "proved",
   "theorems": [
    "Polyanya.C35_future_agrees",
    "Polyanya.C35_blocking_path_is_found",
    "Polyanya.C35_no_path_agrees",
    "Polyanya.C35_lookups_agree_inside"
   ],
   "note": "default features; lookups-agree hypothesis as in the property, discharged for points inside the mesh in exact arithmetic"
  },
  {
   "property": "C36",
   "status": "proved",
   "theorems": [
    "Polyanya.C36_pending_wakes",
    "Polyanya.C36_no_stall"
   ],
   "note": ""
  },
  {
   "property": "C37",
   "status": "proved",
   "theorems": [
    "Polyanya.C37_order",
    "Polyanya.C37_total_preorder",
    "Polyanya.C37_pop_minimal",
    "Polyanya.C37_found_minimal"
   ],
   "note": "uses the contract of BinaryHeap and that total_cmp is a total order"
  },
  {
   "property": "C38",
   "status": "partial",
   "theorems": [
    "Polyanya.C38_heuristic_admissible_partial",
    "Polyanya.C38_estimate_admissible_partial",
    "Polyanya.C38_false_in_band"
   ],
   "note": "exact arithmetic, default features: holds when root and destination are outside the 1e-4 tolerance band around the interval's line (or exactly on it); false inside the band (witness)"
  },
  {
   "property": "C39",
   "status": "proved",
   "theorems": [
    "Polyanya.C39_side",
    "Polyanya.C39_side_reversal",
    "Polyanya.C39_mirror_involution",
    "Polyanya.C39_mirror_isometry",
    "Polyanya.C39_mirror_fixes_line",
    "Polyanya.C39_on_segment",
    "Polyanya.C39_on_segment_points",
    "Polyanya.C39_on_segment_ends"
   ],
   "note": "over the reals (exact arithmetic)"
  },
  {
   "property": "C40",
   "status": "proved",
   "theorems": [
    "Polyanya.C40_rejects",
    "Polyanya.C40_last_value"
   ],
   "note": ""
  },
  {
   "property": "C41",
   "status": "partial",
   "theorems": [
    "Polyanya.C41_length_partial",
    "Polyanya.C41_shortest",
    "Polyanya.C41_false_same_polygon"
   ],
   "note": "proved when the ends are in different polygons; the claim is false of the code when both ends are in the same polygon of a scaled layer (witness C41_false_same_polygon)"
  },
  {
   "property": "C42",
   "status": "proved",
   "theorems": [
    "Polyanya.C42_vertices_on_segment",
    "Polyanya.C42_returns"
   ],
   "note": "order laws of <= assumed (LeLaws, true for IEEE)"
  },
  {
   "property": "C43",
   "status": "proved",
   "theorems": [
    "Polyanya.C43_layer_new_errors",
    "Polyanya.C43_layer_new_keeps",
    "Polyanya.C43_layer_new_succeeds",
    "Polyanya.C43_mesh_new"
   ],
   "note": ""
  },
  {
   "property": "C44",
   "status": "partial",
   "theorems": [
    "Polyanya.C44_never_found",
    "Polyanya.C44_baked_partial",
    "Polyanya.C44_baked_reachable",
    "Polyanya.C44_false"
   ],
   "note": "false for unbaked meshes (panic in edges_index); proved for baked layers"
  },
  {
   "property": "C45",
   "status": "proved",
   "theorems": [
    "Polyanya.C45_bake",
    "Polyanya.C45_unbake",
    "Polyanya.C45_rebake"
   ],
   "note": ""
  },
  {
   "property": "C46",
   "status": "partial",
   "theorems": [
    "Polyanya.C28_mesh_partial",
    "Polyanya.C28_mesh_repeat",
    "Polyanya.C28_mesh_false"
   ],
   "note": "FALSE of the code (C28_mesh_false): the call stops at the first layer in which something was removed. Proved: exactly that, and that calling until false is returned cleans every layer"
  },
  {
   "property": "C47",
   "status": "partial",
   "theorems": [
    "Polyanya.C47_false",
    "Polyanya.C19_round_trip",
    "Polyanya.C79_round_trip"
   ],
   "note": "FALSE of the code (C47_false): remove_stitches does not recompute corner flags, so a query answered by a path before stitching is answered by None after stitching and removing the stitches. Proved: the neighbour sets and geometry are restored (C19), and queries in layer 0 are answered as before when no corner flag of that layer has changed (C79_round_trip)"
  },
  {
   "property": "C48",
   "status": "proved",
   "theorems": [
    "Polyanya.C48_restitch",
    "Polyanya.C48_restitch_at_points"
   ],
   "note": "the result has the neighbour sets of a full stitch of the new layers"
  },
  {
   "property": "C49",
   "status": "partial",
   "theorems": [
    "Polyanya.C49_counts_partial",
    "Polyanya.C49_false"
   ],
   "note": "FALSE of the code (C49_false): truncated files are accepted. Proved: one vertex or polygon per line, vertices first up to the announced number, then not more polygons than announced"
  },
  {
   "property": "C50",
   "status": "partial",
   "theorems": [
    "Polyanya.C50_false",
    "Polyanya.C31_trimesh",
    "Polyanya.C50_three_partial",
    "Polyanya.C31_counterclockwise"
   ],
   "note": "FALSE of the code (C50_false): the comparison used to sort by angle is no order on a full circle, so gaps are listed around a surrounded vertex. Proved (C31): a gap is listed exactly between triangles that follow each other in the listed order without sharing an edge. Proved as well: no gap for a vertex surrounded by exactly three triangles (C50_three_partial)"
  },
  {
   "property": "C51",
   "status": "proved",
   "theorems": [
    "Polyanya.C51_outline",
    "Polyanya.C51_point",
    "Polyanya.C51_no_segments",
    "Polyanya.C51_ring"
   ],
   "note": "over the reals; every edge, radius > 0, number of segments; zero segments panics (debug) as stated; C51_ring: the ring made from a whole outline covers the rounded outline of every side and nothing else, geo's union as a contract"
  },
  {
   "property": "C52",
   "status": "proved",
   "theorems": [
    "Polyanya.C52_outer_edge"
   ],
   "note": "every sequence of builder calls; geo's inflation/contains are parameters with the contract ExteriorRespected"
  },
  {
   "property": "C53",
   "status": "proved",
   "theorems": [
    "Polyanya.C53_path_inside",
    "Polyanya.C53_async_inside",
    "Polyanya.C53_points_inside",
    "Polyanya.C53_grid",
    "Polyanya.C53_get_path",
    "Polyanya.C53_false",
    "Polyanya.C53_false_f32"
   ],
   "note": "exact arithmetic (any linearly ordered field extended by infinities and NaN), mesh of strictly convex polygons that share edges, no comparison of the search with a tolerance is a near miss (NoNearMiss; met by every mesh on a grid of N x N cells, N <= 70, of size at least max(N^2/50, 0.04)). C53_get_path: the same for futures between points of the first layer. Without NoNearMiss the claim is false even in exact arithmetic (C53_false). The counterexample exists also with binary32 rounding (C53_false_f32)"
  },
  {
   "property": "C54",
   "status": "proved",
   "theorems": [
    "Polyanya.C54_shortest",
    "Polyanya.C54_complete",
    "Polyanya.C54_future",
    "Polyanya.dart_shortest",
    "Polyanya.patch_shortest"
   ],
   "note": "exact (real) arithmetic, without detailed-layers, no blocked layers (with them: C59); mesh of strictly convex polygons that share edges, no near misses with the tolerances, Navigable: the vertices that shortest walks visit are flagged as corners or surrounded by polygons (proved: there shortest walks go straight on, Setting.straightOn, and one of them passes by all such vertices on the side where the search follows it, Setting.calm_route), an edge has one polygon on the other side, dead-end flags are correct, the polygons around a vertex are linked (no pinch points, no stacked layers), neither start nor goal is at a vertex that is not flagged. dart_shortest: a concrete query where all hypotheses hold and path returns the path around a corner; patch_shortest: a mesh with an unflagged interior vertex on the shortest path. If the walk exists but the step budget of path is used up it may return None (C54_complete says so); futures have no budget. Islands may be baked (IslandsTrue). Stacked layers are a real counterexample: C55_stacked_false"
  },
  {
   "property": "C55",
   "status": "partial",
   "theorems": [
    "Polyanya.C55_false",
    "Polyanya.C55_stacked_false",
    "Polyanya.C55_false_f32"
   ],
   "note": "as stated the property is FALSE; both theorems are machine-checked counterexamples of the code (in exact arithmetic, on coarse grids): a start exactly on an interior vertex makes the search turn around this vertex forever (path returns None when its budget is used up, a future never resolves, for every tie-break of the heap), and on stitched layers that lie above each other a path may not be found because the search remembers bends without their layer. The statement with the hypotheses that exclude these is C56, proved. The counterexample exists also with binary32 rounding (C55_false_f32)"
  },
  {
   "property": "C56",
   "status": "proved",
   "theorems": [
    "Polyanya.C56_resolves",
    "Polyanya.C56_found",
    "Polyanya.C56_get_path",
    "Polyanya.ring_found"
   ],
   "note": "exact (real) arithmetic, without detailed-layers (C56_resolves: also with it, if all scales are (1, 1); C56_found and C56_get_path with it: C76_found); mesh of strictly convex polygons that share edges, without near misses, Navigable as in C54, no bend corner and not the start enclosed by walkable area; islands may be baked (IslandsTrue, what Mesh::new produces). C56_resolves: termination alone, when one cannot walk around the start or a bend corner in a circle. ring_found: a concrete query around a hole that meets all hypotheses. C55_false shows that the hypothesis on the start is needed"
  },
  {
   "property": "C57",
   "status": "proved",
   "theorems": [
    "Polyanya.C57_length",
    "Polyanya.C57_future_length",
    "Polyanya.C57_estimate"
   ],
   "note": "exact (real) arithmetic, without detailed-layers, Conforming and NoNearMiss; any blocked layers, any heap, any polygon flags. The unrestricted C06/C07/C38 are false (witnesses there). With detailed-layers: C76_length"
  },
  {
   "property": "C58",
   "status": "proved",
   "theorems": [
    "Polyanya.C58_future_agrees",
    "Polyanya.C58_blocking_path_is_found",
    "Polyanya.C58_no_path_agrees",
    "Polyanya.C58_baked_false"
   ],
   "note": "any arithmetic (floats included), any heap; without detailed-layers, no islands baked, both lookups find the same polygon for both points (LookupsAgree). C58_baked_false: if the layers are baked before stitching (which stitch_at_vertices asks for), path finds a way and the future says there is none, so the hypothesis on islands is needed"
  },
  {
   "property": "C59",
   "status": "proved",
   "theorems": [
    "Polyanya.C59_blocked_is_outside",
    "Polyanya.C59_crossings",
    "Polyanya.C59_walks",
    "Polyanya.C59_shortest",
    "Polyanya.C59_complete",
    "Polyanya.notch_shortest"
   ],
   "note": "C59_blocked_is_outside holds for every arithmetic (floats included), all polygon flags, all heaps and configurations; needs that an edge has at most one polygon on its other side (OneOtherSide) and fewer than 2^24 polygons per layer. C59_shortest/_complete are C54 for queries with blocked layers. notch_shortest: a concrete two-layer query that must walk around the blocked layer; both builds: with detailed-layers for layers of scale (1, 1) and Spaced points as in C76 (Cfg.Plain)"
  },
  {
   "property": "C60",
   "status": "proved",
   "theorems": [
    "Polyanya.C60_closest",
    "Polyanya.C60_closest_none",
    "Polyanya.C60_towards",
    "Polyanya.C60_towards_none",
    "Polyanya.C60_total",
    "Polyanya.C60_distance",
    "Polyanya.C60_inside_unchanged",
    "Polyanya.C60_mesh"
   ],
   "note": "C60_distance and C60_inside_unchanged in exact arithmetic, the others in any arithmetic; the layer method searches rings 0..=steps, the mesh method 0..search_steps (C60_mesh relates them)"
  },
  {
   "property": "C61",
   "status": "proved",
   "theorems": [
    "Polyanya.C61_symmetric",
    "Polyanya.C61_way_back",
    "Polyanya.C61_triangle",
    "Polyanya.C61_compose",
    "Polyanya.C61_zero",
    "Polyanya.C61_rest"
   ],
   "note": "exact arithmetic, both builds (with detailed-layers: layers of scale (1, 1) and Spaced points as in C76, Cfg.Plain), navigable meshes (ExactQuery: the scope of C54); C61_symmetric and C61_way_back for meshes without one-way stitches (TwoWay)"
  },
  {
   "property": "C62",
   "status": "proved",
   "theorems": [
    "Polyanya.C62_path",
    "Polyanya.C62_location",
    "Polyanya.C62_future",
    "Polyanya.C62_bake",
    "Polyanya.C62_remove_useless",
    "Polyanya.C62_remove_path",
    "Polyanya.maxHeap_byCost",
    "Polyanya.C62_example"
   ],
   "note": "any arithmetic, any mesh (also malformed ones: faults are alike); the heap compares costs only (Heap.ByCost, proved for maxHeap); with detailed-layers vertex numbers below 2^24"
  },
  {
   "property": "C63",
   "status": "proved",
   "theorems": [
    "Polyanya.C63_polygons",
    "Polyanya.C63_region",
    "Polyanya.C63_tiling",
    "Polyanya.C63_mesh",
    "Polyanya.C63_loop",
    "Polyanya.C63_example",
    "Polyanya.C63_loop_example",
    "Polyanya.wholeGeo_accepts"
   ],
   "note": "the convexity test is assumed to accept only rings that visit no point twice and enclose a convex set (documentation of geo::IsConvex; shown satisfiable by wholeGeo); areas and positions are exact, through val : K -> R; C63_loop: areas are not NaN and at most 2^32 vertices per layer"
  },
  {
   "property": "C64",
   "status": "proved",
   "theorems": [
    "Polyanya.C64_round",
    "Polyanya.C64_walks",
    "Polyanya.C64_lengths",
    "Polyanya.C64_walks_example",
    "Polyanya.C64_lengths_example",
    "Polyanya.extGeo_accepts"
   ],
   "note": "one-layer meshes in exact real arithmetic (with several layers, merging renumbers polygons without renumbering the references from other layers, C29); the convexity test is assumed to accept only convex rings; C64_lengths: both queries in the scope of C54 (ExactQuery) and the end points in one polygon of the merged mesh only; both builds: with detailed-layers for layers of scale (1, 1) and Spaced points as in C76 (Cfg.Plain)"
  },
  {
   "property": "C65",
   "status": "proved",
   "theorems": [
    "Polyanya.C65_path",
    "Polyanya.C65_path_exact",
    "Polyanya.C65_path_exact_detailed",
    "Polyanya.C65_location",
    "Polyanya.C65_closest",
    "Polyanya.C65_future",
    "Polyanya.C65_bake",
    "Polyanya.C65_example",
    "Polyanya.C65_scale_counterexample"
   ],
   "note": "for every scalar type in which adding t loses nothing (Shift): in exact arithmetic (Ext F) every finite t, with f32 as long as no sum is rounded; with detailed-layers the layers must have the default scale: C65_scale_counterexample shows that it is false otherwise; heaps that look at costs only"
  },
  {
   "property": "C66",
   "status": "proved",
   "theorems": [
    "Polyanya.C66_path",
    "Polyanya.C66_location",
    "Polyanya.C66_future",
    "Polyanya.C66_offset",
    "Polyanya.C66_vertices"
   ],
   "note": "for every scalar type in which the change of coordinates loses nothing (Frame; exact arithmetic: every finite vector); path queries and futures: no polygon names a vertex that does not exist; baked layers: the search tree built from the other boxes yields the same candidates in the same order (the exact corollaries are for unbaked layers)"
  },
  {
   "property": "C67",
   "status": "proved",
   "theorems": [
    "Polyanya.C67_path_with_layers",
    "Polyanya.C67_async",
    "Polyanya.C67_seam_false"
   ],
   "note": "exact arithmetic, hypotheses as C53 (conforming mesh, no near misses), feature detailed-layers; the legs of the path are not along an edge where two layers meet: C67_seam_false shows that it is false otherwise"
  },
  {
   "property": "C68",
   "status": "proved",
   "theorems": [
    "Polyanya.C68_from_mesh",
    "Polyanya.C68_base_layer",
    "Polyanya.C68_outer_edge_panics"
   ],
   "note": "every sequence of builder calls; geo/spade are parameters with contracts RefusesNan, HolesExcluded, EmptyIsEmpty; with agent_radius_on_outer_edge the call panics (finding)"
  },
  {
   "property": "C69",
   "status": "proved",
   "theorems": [
    "Polyanya.C69_path",
    "Polyanya.C69_unblocked",
    "Polyanya.C69_future",
    "Polyanya.C69_example",
    "Polyanya.C69_baked",
    "Polyanya.C69_baked_example"
   ],
   "note": "every renumbering and division into layers, blocked layers, futures. With detailed-layers: polygons keep their layers, layers their scales, and vertex numbers are below 2^24 (paths name layers). Islands not baked (C12: in one layer they change nothing). C69_baked: also with islands as Mesh::new bakes them (blocking queries)"
  },
  {
   "property": "C70",
   "status": "proved",
   "theorems": [
    "Polyanya.C70_length",
    "Polyanya.C70_detailed",
    "Polyanya.C70_future",
    "Polyanya.C70_f32",
    "Polyanya.C70_example",
    "Polyanya.C70_nan"
   ],
   "note": "every arithmetic with the laws NanLaws and SignLaws, both proved for IEEE binary32; default features; for points whose distance is a number (C70_f32: for all finite coordinates, every mesh). With detailed-layers: never negative, NaN not excluded. For a NaN point with the polygon stored by the caller the length is NaN (C70_nan)"
  },
  {
   "property": "C71",
   "status": "proved",
   "theorems": [
    "Polyanya.C71_closest",
    "Polyanya.C71_path_ends",
    "Polyanya.C71_outside",
    "Polyanya.C71_point_in_mesh",
    "Polyanya.C71_example",
    "Polyanya.C71_gap_false"
   ],
   "note": "about the program with IEEE binary32 numbers: coordinates are multiples of a power of two between 1/64 and 2^52 and at most 1024 units; conforming mesh of strictly convex polygons. Off the grid it is false: a point inside a mesh near an inner edge is in neither neighbour (C71_gap_false). The sample of ring 0 uses sin 0 = 0 and cos 0 = 1"
  },
  {
   "property": "C72",
   "status": "proved",
   "theorems": [
    "Polyanya.C72_reading",
    "Polyanya.C72_no_counts",
    "Polyanya.C72_document",
    "Polyanya.C72_trailing_space",
    "Polyanya.C72_trailing_space_polygon",
    "Polyanya.C72_empty_line",
    "Polyanya.C72_example"
   ],
   "note": "exactly which ASCII texts are read and as what (C72_reading, an iff against a specification of lines, words and numerals that shares nothing with the reader), and that every text in the documented format is read as documented (C72_document). The documented insensitivity to white space does not hold: trailing spaces and empty lines (C72_trailing_space, C72_empty_line). Parsing of floats is abstract (FloatText)"
  },
  {
   "property": "C73",
   "status": "proved",
   "theorems": [
    "Polyanya.C73_round_trip",
    "Polyanya.C73_example"
   ],
   "note": "binary32 coordinates; formatting with six decimals and parsing are assumed only to do what Rust documents (class DecimalLaws: the exact value rounded to six decimals, ties either way; parsing gives the nearest number), and an instance meeting the laws is constructed and run on a file"
  },
  {
   "property": "C74",
   "status": "proved",
   "theorems": [
    "Polyanya.C74_walks",
    "Polyanya.C74_longer",
    "Polyanya.C74_found",
    "Polyanya.C74_blocked",
    "Polyanya.C74_blocked_found",
    "Polyanya.C74_stitches",
    "Polyanya.C74_one_way"
   ],
   "note": "exact arithmetic, in the scope of C54/C59 (navigable meshes without near misses); both builds: with detailed-layers for layers of scale (1, 1) and Spaced points as in C76 (Cfg.Plain)"
  },
  {
   "property": "C75",
   "status": "proved",
   "theorems": [
    "Polyanya.C75_distance",
    "Polyanya.C75_length",
    "Polyanya.C75_future",
    "Polyanya.C75_detailed",
    "Polyanya.C75_detailed_unit",
    "Polyanya.C75_arithmetic",
    "Polyanya.C75_exceptions",
    "Polyanya.C75_total_order",
    "Polyanya.C75_tie_example"
   ],
   "note": "for binary32; default features: an upper bound for the part of the path before its last leg, because the last leg can be understated (C06); detailed-layers: the whole length; no result when the reported length overflows. C75_arithmetic, C75_exceptions, C75_total_order: the arithmetic of the model is that of IEEE 754 (rounding to nearest, ties to even, overflow, NaN, infinities, signed zeros, total_cmp)"
  },
  {
   "property": "C76",
   "status": "proved",
   "theorems": [
    "Polyanya.C76_shortest",
    "Polyanya.C76_complete",
    "Polyanya.C76_future",
    "Polyanya.C76_found",
    "Polyanya.C76_builds_agree",
    "Polyanya.bigDart_shortest",
    "Polyanya.C76_either_shortest",
    "Polyanya.C76_either_complete",
    "Polyanya.C76_length",
    "Polyanya.C76_false_unspaced"
   ],
   "note": "exact (real) arithmetic, all layers with scale (1, 1) and at most 2^24 vertices each; the conditions of C54 (C76_found: of C56). Spaced: different points that may be listed in path_with_layers are at least 1/100 apart; without it (entries are dropped) the reported length can be below that of the returned polyline, but never above the length of any walk. bigDart_shortest: a concrete query that meets all hypotheses. Other scales: C41, C46, C55. C76_either_*: C54 for both builds (Cfg.Plain). C76_length: the counterpart of C57, any blocked layers, any heap. C76_false_unspaced: a binary32 run where, without Spaced, the reported length is below that of the returned polyline"
  },
  {
   "property": "C77",
   "status": "proved",
   "theorems": [
    "Polyanya.C77_point_in_mesh",
    "Polyanya.C77_point_layer",
    "Polyanya.C77_example"
   ],
   "note": "exact arithmetic (any ordered field with exact operations, reals and rationals in particular); Conforming mesh, every layer unbaked or baked, finite offsets, none of the nine places nearly (closer than the tolerance) but not exactly on the line of an edge; the index is complete. C77_example: a point outside of the mesh that is found, and one that is not"
  },
  {
   "property": "C78",
   "status": "proved",
   "theorems": [
    "Polyanya.C78_well_formed",
    "Polyanya.C78_path",
    "Polyanya.C78_poll",
    "Polyanya.C78_point_queries",
    "Polyanya.C78_operations",
    "Polyanya.C78_new",
    "Polyanya.C78_trimesh",
    "Polyanya.C78_triangulation",
    "Polyanya.C78_bake_stitched",
    "Polyanya.C78_unstitched_false"
   ],
   "note": "histories are an inductive predicate (Built): start from proper layers, then any sequence of merge, clean, bake, unbake, placing layers, settings, stitch, unstitch, take out / replace / restitch a layer that returned. C78_new, C78_trimesh, C78_triangulation: the constructors give proper layers. Merging needs that the convexity test rejects the empty ring. For path queries squared distances of vertices must not be NaN (C10). Several layers must be stitched (C78_unstitched_false: otherwise a path query can panic), and be baked before (C78_bake_stitched: otherwise bake never returns)"
  },
  {
   "property": "C79",
   "status": "proved",
   "theorems": [
    "Polyanya.C79_path",
    "Polyanya.C79_future",
    "Polyanya.C79_same_layers",
    "Polyanya.C79_reorder",
    "Polyanya.C79_round_trip",
    "Polyanya.C79_round_trip_example",
    "Polyanya.C79_reorder_example"
   ],
   "note": "generalises C69: corners list the same sets of polygons (in any order, any number of times, through any injective renumbering), and paths can turn at the same corners; only a closed part of the mesh has to correspond. Needs that at most one other polygon is listed across an edge (C80_false shows that the order decides otherwise). C79_reorder: reorder_neighbors; C79_round_trip: stitching and remove_stitches, when corner flags are as before (the positive side of C47_false). Both builds (with detailed-layers: layers keep their scales, vertex numbers below 2^24), baked or not"
  },
  {
   "property": "C80",
   "status": "partial",
   "theorems": [
    "Polyanya.C80_false",
    "Polyanya.C54_complete"
   ],
   "note": "FALSE of the code (C80_false): a search enters only the first polygon that is listed at both ends of an edge. With two layers stitched along the same edge of a third one there is a path from each of them, but a path to one of them only, also when the other one is blocked. Proved: in conforming meshes, where nothing overlaps, the search is complete (C54_complete)"
  },
  {
   "property": "C81",
   "status": "partial",
   "theorems": [
    "Polyanya.C81_false",
    "Polyanya.C81_restitch_partial",
    "Polyanya.C81_queries_partial",
    "Polyanya.C81_example"
   ],
   "note": "FALSE of the code (C81_false): stitching a stitched mesh again panics, because the layer is added to polygon numbers that have it already. Proved: after remove_stitches one can stitch with any other list, with the connections, and the answers of queries, of stitching with that list at once"
  },
  {
   "property": "C82",
   "status": "partial",
   "theorems": [
    "Polyanya.C82_false",
    "Polyanya.C82_sector_partial",
    "Polyanya.C82_never_left_partial",
    "Polyanya.C82_arc_partial",
    "Polyanya.C82_example"
   ],
   "note": "FALSE of the code (C82_false): ring s of the search is only the part of the circle up to 2 pi s/(s+1), so with the default settings a query to the right of the mesh is not moved onto it, its mirror image to the left is. Proved: the exact sector that is searched, and that an arc of it as wide as the distance of two samples is never missed"
  },
  {
   "property": "C83",
   "status": "partial",
   "theorems": [
    "Polyanya.C83_false",
    "Polyanya.C83_false_far",
    "Polyanya.C83_false_layers",
    "Polyanya.C83_same_polygon_partial",
    "Polyanya.C83_example"
   ],
   "note": "FALSE of the code: next to the mesh point_in_mesh and get_path accept points that path rejects (C83_false) and, with three steps, the other way round (C83_false_far); in layers next to each other get_path may start in a layer that does not contain the point (C83_false_layers). Proved: for a point in a polygon of a layer, if its probes miss the earlier layers, all accept it, and start from the same polygon"
  },
  {
   "property": "C84",
   "status": "partial",
   "theorems": [
    "Polyanya.C84_false",
    "Polyanya.C84_obstacles_partial",
    "Polyanya.C84_example"
   ],
   "note": "FALSE of the code: the documentation of simplify says it simplifies the outer edge and the obstacles; the outer edge is left alone, and with no obstacle the call does nothing (C84_false, for every library). Proved: the obstacles are simplified, in order"
  },
  {
   "property": "C85",
   "status": "partial",
   "theorems": [
    "Polyanya.C85_false",
    "Polyanya.C85_reach_partial"
   ],
   "note": "FALSE of the code: the documentation of all four closest-point methods says they search up to delta * steps; only Layer::get_closest_point does, the other three stop at delta * (steps - 1) (C85_reach_partial, exact arithmetic), so with the default settings a mesh 0.15 away is missed (C85_false)"
  },
  {
   "property": "C86",
   "status": "proved",
   "theorems": [
    "Polyanya.C86_path",
    "Polyanya.C86_future_example",
    "Polyanya.C86_future",
    "Polyanya.C86_quarter",
    "Polyanya.C86_angle",
    "Polyanya.C86_in_mesh",
    "Polyanya.turn_quarter",
    "Polyanya.turn_angle",
    "Polyanya.C86_example",
    "Polyanya.C86_location_counterexample",
    "Polyanya.C86_in_mesh_example"
   ],
   "note": "every turn in exact arithmetic, the quarter turn with infinities and NaN; the endpoints must be found in the same polygons, as point location probes along the axes and so is kept by the quarter turn only (C86_location_counterexample). With detailed-layers the scales must be 1, as for C65"
  },
  {
   "property": "C87",
   "status": "partial",
   "theorems": [
    "Polyanya.C87_unbake_partial",
    "Polyanya.inBoxes_complete",
    "Polyanya.C87_false",
    "Polyanya.C87_example"
   ],
   "note": "false as stated with f32 numbers (C87_false): the rounded side tests accept a point outside the bounding box of a sliver, which the baked finder never looks at. What holds: in every arithmetic, unbaking loses no point; in exact arithmetic nothing changes (C14), and neither does it on a grid (C71)"
  },
  {
   "property": "C88",
   "status": "proved",
   "theorems": [
    "Polyanya.C88_path",
    "Polyanya.C88_agree",
    "Polyanya.C88_future",
    "Polyanya.C88_more_layers",
    "Polyanya.C88_any_layers",
    "Polyanya.C88_example",
    "Polyanya.C88_example_path",
    "Polyanya.C88_future_example"
   ],
   "note": "every arithmetic; path with default features (futures in both builds). The ends are to be found in the same polygons: an added layer that lies above or next to a point can of course change where the point is found. A path that is found is found in the larger mesh; the other way round the budget of the smaller mesh may be used up first (C89_false)"
  },
  {
   "property": "C89",
   "status": "partial",
   "theorems": [
    "Polyanya.C89_budget_partial",
    "Polyanya.C89_false",
    "Polyanya.C89_false_new",
    "Polyanya.C89_unconnected_layer"
   ],
   "note": "false as stated (C89_false, f32 numbers, a mesh of three convex polygons made by Mesh::new). What holds: the budget is the only reason; in a mesh with enough polygons, connected or not, path gives the answer of the future (C89_budget_partial, every arithmetic)"
  },
  {
   "property": "C90",
   "status": "partial",
   "theorems": [
    "Polyanya.C90_larger_partial",
    "Polyanya.C90_in_mesh_partial",
    "Polyanya.C90_false",
    "Polyanya.C90_example",
    "Polyanya.C90_in_mesh_example"
   ],
   "note": "false as stated (C90_false, f32 numbers, a mesh of three squares; the factor is a power of two, so nothing is rounded): the tolerances are absolute. Proved for larger units, exact arithmetic, default build: shortest paths whose lengths are multiplied by exactly the factor. Which points are in the mesh carries over as well, for points no probe of which is near an edge (C90_in_mesh_partial). Missing: smaller units, and points near an edge"
  }
 ]
}