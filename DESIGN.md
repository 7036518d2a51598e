# Formal model of vleue/polyanya in Lean 4 — design

(Written before the proofs; the status sections at the end are updated as the work proceeds.)

## 1. What is modelled

`/verif/lean/Verif/Model/*.lean` is an executable model, function by function, of the Rust code in
`/repo/src`. Every definition cites the file and lines it models and names its simplifications.

| Lean module | Rust source |
|---|---|
| `Model/Scalar.lean` | `f32` operations and `glam::Vec2` methods used by the crate |
| `Model/Basic.lean` | `primitives.rs` (`Vertex`, `Polygon`), `U32Layer` (instance.rs), faults |
| `Model/Helpers.lean` | `helpers.rs` |
| `Model/Layer.lean` | `layers.rs` (bake, islands, point location, closest point) |
| `Model/Instance.lean` | `instance.rs` (the Polyanya search) |
| `Model/Mesh.lean` | `lib.rs` (`Mesh`, `Coords`, `path`, point queries, `Ord for SearchNode`) |
| `Model/Async.lean` | `async_helpers.rs` |
| `Model/Merger.lean` | `merger.rs` |
| `Model/Cleanup.lean` | `mesh_cleanup.rs` |
| `Model/Stitching.lean` | `stitching.rs` |
| `Model/File.lean` | `input/polyanya_file.rs` (and `meshes/format.txt`) |
| `Model/Trimesh.lean` | `input/trimesh.rs` |
| `Model/Triangulation.lean` | `input/triangulation.rs`, its `mod inflate` |

Around the model:

| Lean modules | content |
|---|---|
| `Spec/*.lean` | the vocabulary of the theorem statements: what a corridor, a walk, a connected component, a gap, a stitch ... is. These files do not use the functions they specify |
| `Spec/RealScalar`, `Spec/Ext`, `Spec/RatScalar`, `Spec/Binary32` | arithmetics: IEEE binary32; the reals; any ordered field extended by infinities and NaN with IEEE division by zero (`Ext F`); the rationals, for computed examples |
| `Proofs/*.lean` | lemmas: reachability of nodes, geometry, union-find, absence of faults, ... |
| `Props/*.lean` | the theorems `Cnn_...`, each with an example that meets its hypotheses, and the counterexamples `Cnn_false` |

### Floating point

`f32` is not assumed to be a field. The model is written over a class `Scalar K` of *operations
without any law* (`add`, `mul`, `sqrt`, IEEE-style Boolean comparisons, `isNan`, ...). Every theorem
that says "for every arithmetic" is quantified over all instances of that class, so it holds for IEEE
`f32` with all its rounding, NaN and infinities, as well as for exact reals. Theorems that really are
geometric ("in exact arithmetic") are stated for the instance `Scalar ℝ`, and say nothing about rounding.
Computable instances (`ℚ`, and `ℚ` with NaN) are used for non-vacuity examples and counterexamples.

`Spec/Binary32` is a computable model of IEEE binary32 itself, `B32`: signed zeros, subnormal numbers, overflow,
infinities, one NaN; `+ - * / sqrt`, literals and conversions. `Proofs/Binary32` proves that each of these operations is
correctly rounded (`add_rounded`, `sub_rounded`, `mul_rounded`, `div_rounded`, `lit_rounded`, `ofNat_rounded`,
`sqrt_nearest`: the result is a binary32 number nearest to the exact one, or an infinity where the exact one is beyond the
range; `roundTo_even`: ties to even), and C75 (`Spec/Ieee`, `C75_arithmetic`, `C75_exceptions`, `C75_total_order`) that it is
what IEEE 754 demands, with overflow, invalid operations, signs of zeros and `total_cmp`. The law classes assumed elsewhere (`NanLaws`, `LeLaws`, `TotalCmpLaws`, `EqLaws`,
`SignLaws`) are proved for `B32`. glam's `angle_to` is a polynomial of IEEE operations and is modelled as such (from the
published source of glam 0.29, which is not in this sandbox). `sin`, `cos` (rounded power series) and `atan2` come from the
platform's library and are stand-ins in the `Scalar B32` instance; the binary32 counterexamples (`..._f32`) find their points at the first probe, and
so do not depend on them.

### Faults

Functions that can panic (index out of range, `unwrap` on `None`, `len() - 1` on an empty `Vec`) or
reach an out-of-bounds `get_unchecked` return `Except Fault α`, with `Fault.panic` and `Fault.ub`
distinguished. Loops that are not structurally recursive take fuel and return `Fault.fuel` when it runs
out; theorems show it never does.

### External code (parameters with a recorded contract)

Each of these is a parameter of the model; theorems quantify over every value of the parameter that satisfies
the contract named in their hypotheses. Every contract is shown to be satisfiable by an instance.

| External code | Model | Contract |
|---|---|---|
| `std::collections::BinaryHeap` | `Heap`: any `pop` that removes one element | `Heap.Max` (popped node maximal) only where best-first order matters (C37) |
| `bvh2d::BVH2d::contains_iterator` | `Bvh`: any function from boxes and point to indices | `InRange` (indices exist), `Complete` (all boxes that contain the point are listed) |
| `sort_by` on a total preorder | `List.mergeSort` | none (defined) |
| `sort_unstable_by_key` (cleanup, stitching) | `Sorter` | `Sorter.Ok`: a permutation that is ordered by the key |
| `sort_by` with the trimesh comparator (no total order) | `TriSorter`, may also panic | `Permutes` |
| `HashMap`, `HashSet` | association lists | used through lookups only |
| `geo` convexity test | `Geo` | none, or `RejectsRepeats` where stated (C25, C26), or `AcceptsConvexOnly` (C63), or that the empty ring is rejected (C78) |
| `geo` boolean operations, `contains`, `simplify`; `spade` constrained Delaunay triangulation | `TriLib` | `RefusesNan`, `HolesExcluded`, `ExteriorRespected`, `Separates`, incidence consistency: each named in the theorem that needs it (C32-C34, C52) |
| formatting and parsing of floats | functions | `PrintableFile` (C29: hypothesis per number), `DecimalLaws` (C73: what Rust documents, for binary32) |
| IEEE arithmetic | `Scalar K` without laws | `NanLaws`, `LeLaws`, `TotalCmpLaws`, `EqLaws` (facts true of IEEE floats) where stated; `ExactField` / the reals for geometry |

### Not modelled

`stats`, `verbose`, `tracing`, `serde` features; debug-only printing and `fail_fast`; file system calls of
`from_file`/`to_file` (the byte level is modelled); the text of `Display`; the inside of the external
libraries listed above (polygon clipping, Delaunay triangulation, BVH construction, float text); the rounding
of `f32` in the geometric theorems (they are stated in exact arithmetic and say so); threads and performance.

## 2. Properties: what is modelled and how each is proved

| Id | Model | Technique |
|---|---|---|
| C01 | search + `path_on_layers` + `poll` | case analysis on `next`; loop induction |
| C02-C04 | search | invariant on every queued/buffered node (`Reach` from the start polygon), preserved by `add_node`, `successors`, `next`; induction over the loop |
| C05 | search | invariant on `node.path` |
| C06, C07 | search over `Scalar ℝ` | invariant "known length = polyline length of `path`", real analysis of `heuristic`/`turning_point`; the 1e-4 tolerance makes the full claim false (witness), so partial |
| C08 | `path_on_layers` | direct |
| C09 | fuel-indexed loops | pigeonhole on the visited set |
| C10 | everything returning `Except` | invariant that all indices in nodes are in range |
| C11 | `edges_between` | false of the code (guard uses `>` instead of `>=`): witness; partial theorem for in-range indices |
| C12, C13 | `bake_islands_detection` | loop invariants of the flood fill; C02 gives equality of the queries |
| C14 | bake AABBs, point-in-polygon over ℝ | angular-sort argument: a point left of all edges is inside the bounding box |
| C15-C17 | `lib.rs` queries | list reasoning; real `sin`/`cos` for distances |
| C18 | `UInt32` shifts | bit lemmas to `Nat` div/mod |
| C19-C22, C48 | stitching | exact set-level characterisation of every pass (what each vertex lists afterwards) |
| C23, C28, C46 | cleanup | characterisation per vertex; prefix-count index map; C46 is false (short-circuit), witness |
| C24-C27 | merger | union-find invariant (parent forest), compaction-loop invariant, shoelace algebra |
| C29, C30, C49 | bytes, lines, tokens, decimal digits | induction; float text is a parameter with its contract; C49 is false, witness |
| C31, C50 | trimesh | list induction; the sort is any permutation; C50 is false, witness |
| C32, C33, C52 | builder state machine | refinement to a record / to the history of the calls; C33 is false after two `prebuild` calls (witness) |
| C34 | abstract CDT | list induction |
| C35, C36 | `poll` state machine | simulation between the poll loop and the blocking loop |
| C37 | `Ord` | order laws from those of `total_cmp`; contract of pop |
| C38, C39 | `Scalar ℝ` | real algebra, Cauchy-Schwarz/triangle inequality |
| C40, C43-C45 | direct | |
| C41 | search with `detailed = true` | loop induction, `mergeSort` head is minimal |
| C42 | layers | `mergeSort` permutation and sortedness |
| C47 | stitching + search | false (stale corner flags): computed witness |
| C51 | inflate.rs over ℝ | real `sin`/`cos`/`atan2` |
| C53 | search over `Ext F` | invariant on every generated node: the walk to its root, and the straight lines from the root to every point of its interval, stay in the mesh (`NodeGeo`); exact evaluation of every side/intersection test under `NoNearMiss`; `NoNearMiss` derived for coarse grids |
| C54 | search over `Ext ℝ` | the shortest walk is followed as a list of crossings; at every step some node of the queue "covers" it (`Cover`, `Held`): its estimate is at most the optimum, and expansion, pruning by `root_history` and dead-end flags keep a covering node; the popped node has the least estimate; vertices inside the mesh are not flagged as corners: a shortest walk goes straight on there (`Setting.straightOn`: a bend could be cut, by turning around the vertex, `spin`), and one of the shortest routes turns around each of them on the side that the search keeps (`Setting.calm_route`) |
| C55 | search over `Ext F` | false as stated: two counterexamples, with an invariant of the queue for the search that never ends |
| C56 | search over `Ext ℝ`, futures | each step replaces a queued node by finitely many later ones (new root on the chain, or same root further on); well-founded multiset order (`CutExpand`); same-root chains are well-founded because what is seen shrinks to edges strictly behind, or they turn around the root, which a wall stops |
| C57 | search over `Ext ℝ` | the geometry of every node (`Known`) gives its length; the last leg and the heuristic are exact outside near misses |
| C58 | `path`, `FuturePath::poll`, any scalar | same search in both: `pollSteps` and `searchLoop` are compared step by step (`agree_cases`); counterexample with baked islands computed by the kernel |
| C59 | whole query, any scalar | simulation: both searches do the same steps, the instances differ in the list of blocked layers only (`Sim`); then C54 (C76) on the cut off mesh |
| C60 | `Layer::get_closest_point`, `get_closest_point_towards` | first hit of the list of samples (`findFirst_some`, `findFirst_none`) |
| C61 | lengths of `Mesh::path` as a distance on navigable meshes | corollaries of C54 and, with `detailed-layers`, of C76 (`Straight.reverse`, `Walk.reverse`, `Walk.append`) |
| C62 | runs of the whole search in two meshes that differ in the numbering of vertices (`SameMesh`, Spec/Alike) | relational simulation (`RR`): nodes differ in the vertex numbers of their edge only, so every step, fault and result is alike; point location and baking likewise; `remove_useless_vertices` gives such a mesh (via C28) |
| C63 | `Layer.mergePolygons`, `mergeLayers`; `Encloses`, `ConvexOutline`, `Layer.Walkable`, `Layer.Tiling` (Spec/Region) | two convex polygons joined along an edge into a convex one enclose exactly the union (`JoinedUp.region`); invariant of the merge loop; proper tilings are conforming (`Layer.Tiling.conforming`) and stay proper tilings, so the rounds can be repeated |
| C64 | `Layer.mergePolygons`, `Mesh.path`; `Walk`, `SameWalks` (Spec/SameWalks) | invariant of the merge loop: a merged polygon contains exactly the points of its parts, and between two points of it the straight line is a walk through the parts (`WInv`, by splitting at the shared edge); forwards, a crossing between parts of one polygon is dropped, the others are edges of the merged polygons; lengths by C54 in both meshes |
| C65 | the whole search, location and polling; `Mesh.moved`, `Shift` (Spec/Moved) | relational: every step of the moved run is the moved step (`*_moved`); the laws `Shift` in `Ext F` by cases on finite, infinite, NaN; counterexample with a scale by evaluation |
| C66 | the same; `SameWorld`, `Frame` (Spec/Reframed) | the searches are alike since world positions are equal (`MeshAlike` of C62); point location: the local query point moves with the vertices (`*_reframed`) |
| C67 | `newPathWithLayers`, `resolveLayers`, `dropClose`, the whole search (Spec/Tour) | invariant of all generated nodes (`TourInv`, `gen_tour`): the marks of a node, resolved towards any point seen through its interval, are the announcements of a tour; a mark is hit exactly where the leg crosses the edge (`leg_step`) |
| C68 | `fromMesh`, `fromMeshLayer`, `addBaseLayer`, `keeps`, `asLayer`, `asNavmesh` | invariant of the loop over the edges (`BaseInv`: handles are where the vertices are, remembered edges are constraint edges); origin and fate of every ring (`ring_origin`, `obstacle_fate`) |
| C69 | the whole search, `pathOnLayers`, `poll` (Spec/Renumbered: `SamePolygons`, `BlockedAs`) | simulation of the two runs by an injection of the polygon numbers (`NodeTo`, `InstTo`, `next_to`, `pathBetween_to`, `poll_to`); for baked meshes by composition with `C12_forget_islands` (`C69_baked`) |
| C70 | `pathOnLayers`, `poll`, `heuristic` (Spec/Sane: `SignLaws`, `NonNegative`; Spec/Binary32) | invariant of generated nodes: both costs are numbers and not negative (`add_node` drops NaN); `SignLaws`, `NanLaws` proved for `B32` |
| C71 | `locate`, `getClosestPoint`, `pointInMesh`, `pathOnLayers` over `B32` (Spec/Grid32) | every intermediate value of `side` is an exact multiple of the squared unit and nonzero ones exceed the tolerance (`sub_mult`, `mul_mult`, `side_exact`), so `pointInPolygon` commutes with the exact value map (`pointInPolygon_exact`); boxes commute too (`polygonAabb_exact`); then the exact location theorems apply |
| C72 | `PolyanyaFile.fromBytes` (Model/File) against Spec/Format: lines, words, numerals, documents | `linesFrom` inverts `TextOf`; `splitOn` and `WordsOf` are the same; each `parse` is an iff with numerals; induction over the lines of the body for the vertex phase and the polygon phase (`read_body_iff`) |
| C73 | C29's model at `B32`, with the documented behaviour of `{:.06}` and `parse::<f32>` as `DecimalLaws` (Spec/Decimal32) | nearest of nearest: the number read is within two half millionths; spacing of binary32 numbers above 16 is more than that; a millionth is no difference of dyadic numbers, so the second text is the first |
| C74 | relation `Narrower` between meshes (Spec/Narrower), blocked layers as in C59, stitching as in C20 | walks of the narrower mesh are walks of the other (induction), so C54's shortest path there is not longer; stitching by fewer links lists fewer polygons (C20), hence is narrower |
| C75 | the search over `B32` (binary32, Spec/Binary32); `Accurate` (Spec/Accuracy32) compares with the exact length over the reals | error of one rounding from the definition of `round` (relative 2^-24 unless the last place is the unit), then of a distance and of a sum; induction over generated nodes for the bends, over `path_with_layers` for `detailed-layers` |
| C76 | the search with `detailed = true` over `Ext ℝ`; `Unscaled`, `Spaced` (Spec/Unscaled, Spec/Spaced) | with scale 1 both builds order the queue alike, so the invariant of C54 applies; the listed entries trace the returned polyline (`gen_trace`, without the condition of C44), dropping entries only shortens (triangle inequality) and drops nothing but repetitions when `Spaced`; the loop collects a least path unless the budget is used up, and the sort picks one not longer |
| C77 | `get_point_location`, `get_point_locations`, `point_in_mesh`, `get_point_layer` over `Ext F`; `Probe` (Props/Probes) | the nine computed offsets are the nine places (`probeOffsets_iff`); lookup at each by `locate_ext`; first hit of the scan |
| C78 | all operations that change a mesh, as steps of a history (`Built`, Spec/History) | one invariant for all phases (`HistInv`): static facts, every corner lists a polygon (of its own layer, once ids are packed), references in range; preserved by every step (C20, C22, C25, C28, C45 and their lemmas), then C10 |
| C79 | two meshes whose corners list the same sets of polygons (`LikePolygons`, Spec/Unordered) | the simulation of C69, now abstract in the relation between vertices (`Renum`, Proofs/Renumbered); with one polygon across each edge, the first match in any order is the same; C19, C23 and point location (`SameShape.loc`) for the operations |
| C80 | as C20, and the whole search | false: `C80_false`; what holds is C54 (no overlaps) |
| C81 | `stitchAtVertices` and `removeStitches` in sequence | false when stitching twice (`C81_false`); with `remove_stitches` in between: C19 gives unstitched layers back, then C20; queries by C79 |
| C82 | `getClosestPoint`, `ringSample` over the reals | false (`C82_false`); the sector that is searched from C16, a sample in every arc wider than the step by rounding up |
| C83 | `getPointLocation`, `getClosestPoint`, `poll` | false, three witnesses; for points inside a polygon both searches stop at their first probe |
| C84 | builder operations over an abstract geometry library | false of the outer edge: `simplify` can be dropped from every history without obstacles (induction over the calls); obstacles: direct |
| C85 | the four closest-point searches over the reals | false of three of them (`C85_false`: the last step is never taken); what they do reach from C16, C17, C60 |
| C86 | the whole search in a mesh and in its turn by a linear map that keeps dot and perp-dot products (`IsTurn`) | the two runs stay related step by step (`Proofs/Turned.lean`, as for C65); every angle is an `IsTurn` in exact arithmetic, the quarter turn also with infinities and NaN; point location is kept by the quarter turn only |
| C87 | point_in_mesh in a mesh and in its unbaked copy, any arithmetic; the f32 run in the kernel | false as stated: a point 3 units outside the bounding box of a sliver is in the triangle for the rounded side tests (`C87_false`); unbaking loses no point, in every arithmetic (`C87_unbake_partial`, from the shape of the answers of both finders) |
| C88 | two meshes that contain the same closed part (`PartAs`, `Mesh.Closed`; Spec/Part) | the simulation of C69/C79 needs the part only; without the equal number of polygons the budgets differ, and more steps keep a path that is found |
| C89 | `path` and the future of `get_path` in one mesh, and in the mesh with more layers | false as stated: three convex polygons, two of which share a side divided by 35 vertices, use up the 30 steps (`C89_false`, run in the kernel with f32 numbers); lockstep of futures (C88) and the agreement of C58 show that the budget is the only reason (`C89_budget_partial`) |
| C90 | paths in a mesh and in the same mesh in another unit (`Mesh.InUnit`; Spec/Unit) | false as stated: of the L-shaped mesh with squares of side 1/64 the middle is not in the mesh (`C90_false`, f32 numbers in the kernel); for factors of at least 1 all notions of C54 carry over (walks, navigability, no near misses; Proofs/Unit), so C54 holds in both units (`C90_larger_partial`); sharp probes go with the unit, so C77 holds in both units (`C90_in_mesh_partial`) |

## 3. Trusted base

* Lean 4.33.0's kernel. Examples and counterexamples are evaluated with `decide +kernel`, i.e. by the kernel; no
  compiled code is trusted.
* Axioms: every theorem depends on a subset of `propext`, `Classical.choice`, `Quot.sound` (checked with
  `#print axioms` on every theorem of the manifest). No axiom is added.
* The faithfulness of the definitions in `Model/` to the Rust text (read, not run), and the contracts of
  external code listed above. Evidence for it: `Verif/Conformance/` runs the crate's own unit tests on the model over
  `B32`, in the kernel, with the crate's expected values (bit for bit where the crate compares so): `helpers.rs`,
  `primitives.rs`, `lib.rs`, `layers.rs` (both builds), `stitching.rs` (both builds), `merger.rs`, `input/trimesh.rs`, and
  scenarios of `tests/arena-merged.rs`. All agree. These are tests of the model; no claim rests on them.

Modelled: `helpers.rs`, `primitives.rs`, `layers.rs`, `instance.rs`, `lib.rs`, `async_helpers.rs`, `merger.rs`,
`mesh_cleanup.rs`, `stitching.rs`, `input/polyanya_file.rs`, `input/trimesh.rs`, `input/triangulation.rs`,
its `mod inflate`. Not modelled: see the end of section 1.

## 4. Findings

Defects (or surprises) of the code found by trying to prove the properties; each has a theorem unless marked (r),
"by reading".

* C06/C07: inside the 1e-4 tolerance band of the last interval the reported length can be shorter than the
  straight line (`C06_C07_false`); C38: there the heuristic overestimates (`C38_false_in_band`).
* C11: `edges_between` guards with `>` instead of `>=` before `get_unchecked` (`C11_false`).
* C25: the convexity test used for merging is local; a ring that visits a vertex twice passes it
  (`C25_needs_strict_convexity`).
* C33: a second `prebuild` drops constraint edges of earlier obstacles (`C33_false`).
* C41: with detailed-layers, both ends in one polygon of a scaled layer give the unscaled length
  (`C41_false_same_polygon`).
* C44: querying an unbaked mesh with an empty polygon panics (`C44_false`).
* C46: `Mesh::remove_useless_vertices` stops at the first layer that changes (`C28_mesh_false`).
* C47: `remove_stitches` leaves stale corner flags and gap markers (`C47_false`).
* C49: truncated files are accepted (`C49_false`); an empty polygon in a file makes reading panic and an empty
  neighbour list comes back as `[u32::MAX]` (`C29_empty_polygon`, `C29_round_trip`).
* C50: the trimesh comparator is no total order on a full circle (`C50_false`).
* C51: zero segments per corner underflow (`C51_no_segments`).
* C55: a search from a start that lies exactly on an interior vertex can turn around this vertex forever: `path` gives
  up with `None` after its budget and a future never resolves, although there is a way (`C55_false`). The cause: nodes
  whose interval contains the root are re-created with the same root and the same known length, which
  `add_node` does not prune.
* C55: `root_history` is keyed by the coordinates of a bend without its layer, so on stitched layers that lie above each
  other the second visit of a point is pruned, and no path is found (`C55_stacked_false`).
* C58: `FuturePath::poll` compares the islands inside one layer also on stitched layers (async_helpers.rs:61-75), whereas
  `path` does so for single-layer meshes only (lib.rs:266); on layers baked before stitching, the future reports no path
  although there is one over another layer (`C58_baked_false`).
* C65: with `detailed-layers`, `add_node` measures from a root to the *scaled* next root (instance.rs:563-571), scaling
  about the origin of the world, so known lengths, and which ways are pruned, depend on where the mesh is: the same
  mesh of scale 2 moved by (100, 0) answers with a longer path (`C65_scale_counterexample`).
* C67: with `detailed-layers`, a leg that runs along the edge where two layers meet, and on into the second layer, is listed as
  if it were in the first layer, and is measured with the scale of the first layer (`C67_seam_false`).
* C68: `agent_radius_on_outer_edge(true)` on a builder started from a mesh makes `as_layer` panic (no outer edge to inflate).
* C70: a point with a NaN coordinate whose polygon the caller supplies gives a path of length NaN (`C70_nan`).
* C72: `format.txt` says the format is insensitive to white space, but a space at the end of a vertex line is read as one more gap
  and turns the vertex into a corner, a space at the end of a polygon line or an empty line (also at the end of the file) panics
  (`C72_trailing_space`, `C72_trailing_space_polygon`, `C72_empty_line`). The number of neighbours on a vertex line is not looked at.
* C71: with f32 numbers that are not on a grid, a point inside the mesh can be in neither of the two polygons at an inner edge,
  because the sides are computed from different end points and round differently; `get_closest_point` then answers with
  another point, in a polygon that does not contain the queried point, or with none (`C71_gap_false`, coordinates below 1000).
* C76: with `detailed-layers`, an entry closer than 1/100 to the next one is left out of `path_with_layers`, and the length is
  summed over the entries that are left, so it can be below the length of the returned `path` (`C76_false_unspaced`, binary32).
* C78: on several layers that are not stitched, also after `remove_stitches`, vertices list numbers within their layer, which the
  search takes for polygons of the first layer: a path query can panic (`C78_unstitched_false`). `bake` on stitched layers, which
  its documentation excludes, never returns (`C78_bake_stitched`).
* C80: of several polygons that are listed at both ends of an edge, the search enters only the first one. With two floors stitched
  along the same edge, one of them cannot be reached from there, even when the other one is blocked (`C80_false`).
* C81: stitching a mesh that is already stitched panics, or changes polygon numbers to those of other layers: stitches cannot be added
  in a second call (`C81_false`); `remove_stitches` has to come first (`C81_restitch_partial`).
* C82: ring `s` of `get_closest_point` is only the part of the circle up to the angle `2 pi s/(s+1)`, measured clockwise from north; with
  the default settings (one ring) a point east of the mesh is not moved onto it, its mirror image in the west is (`C82_false`).
* C15: with a layer the mesh does not have, `get_closest_point` and path queries panic, `point_in_mesh` answers false
  (`C15_out_of_range`, `C15_out_of_range_panics`).
* C83: next to the mesh `point_in_mesh` and `get_path` accept points that `path` does not, and the other way round; `get_path` tries nine
  probes in a layer before the next layer, so it may start in a layer that does not contain the point, and find no path where `path`
  finds one (`C83_false`, `C83_false_far`, `C83_false_layers`).
* C84: `simplify` does not simplify the outer edge, although its documentation says so (`C84_false`).
* C85: `Mesh::get_closest_point`, `Mesh::get_closest_point_towards` and `Layer::get_closest_point_towards` stop one step before the documented
  `delta * steps`; `Layer::get_closest_point` does not (`C85_false`).
* C86: whether a point near a border is in the mesh depends on how the mesh is turned (`C86_location_counterexample`).
* C87: with f32 numbers baking changes which points are in a mesh, and so which queries have a path (`C87_false`).
* C89: `path` gives up after ten steps for every polygon of the mesh (lib.rs:313). In a mesh with few polygons that share sides with many
  vertices on them it returns `None`, while a future resolves to a path; one more polygon, in a layer that is not connected to
  anything, makes `path` find it (`C89_false`, `C89_unconnected_layer`).
* C90: the tolerances are absolute (helpers.rs:27: a point within 1e-4 of a line, measured by an area, is on it), so a mesh with
  cells of side 1/64 does not contain the middle of its cells, and has no paths, while the same mesh in a unit 64 times smaller
  has them (`C90_false`).
* C90: the tolerances are absolute (helpers.rs:27: a point within 1e-4 of a line, measured by an area, is on it), so a mesh with
  cells of side 1/64 does not contain the middle of its cells, and has no paths, while the same mesh in a unit 64 times smaller
  has them (`C90_false`).
* C53: the tolerances are absolute, so paths cut corners in meshes with cells of size 1/40 (`C53_false`; 3/128 in
  binary32: `C53_false_f32`).
* (r) `as_navmesh` has no `TooManyPolygons` check; `from_mesh` with
  `agent_radius_on_outer_edge` and a radius above 1e-5 panics.

## 5. How the theorems are tested

`seeded/LOG.jsonl`: each line is an edit of the model in a scratch copy, the claim it breaks, the theorems that no
longer build, and what was tightened when a theorem wrongly survived.
