import Verif.Props.Unordered
import Verif.Props.StitchingExamples
import Verif.Proofs.Cyclic
/-
Concrete cases for C79.
-/

namespace Polyanya

/-- `Mesh.OneAcross`, decided by running through the mesh (used for examples only). -/
def oneAcrossCheck (m : Mesh Rat) (P : UInt32 → Bool) : Bool :=
  m.numberedPolygons.all (fun e => !P e.1 || (cycEdges e.2.2.vertices).all (fun ab =>
    match e.2.1.vertices[ab.1.toNat]?, e.2.1.vertices[ab.2.toNat]? with
    | some x, some y =>
      let both := x.polygons.filter (fun q => y.polygons.contains q && q != u32Max && q != e.1)
      both.all (fun q => both.all (fun q' => q == q'))
    | _, _ => true))

theorem oneAcross_of_check {m : Mesh Rat} {P : UInt32 → Prop} {P' : UInt32 → Bool} (hP : ∀ id, P id → P' id = true)
    (h : oneAcrossCheck m P' = true) : m.OneAcross P := by
  intro id l p a b x y hid hp he hx hy q q' h1 h2 h3 h4 k1 k2 k3 k4
  unfold oneAcrossCheck at h
  rw [List.all_eq_true] at h
  have := h _ (mem_numberedPolygons hp)
  simp only [hP id hid, Bool.not_true, Bool.false_or, List.all_eq_true] at this
  have := this (a, b) (mem_cycEdges.2 he)
  simp only [hx, hy, List.all_eq_true, List.mem_filter, Bool.and_eq_true, bne_iff_ne, List.contains_iff_mem,
    beq_iff_eq] at this
  exact this q ⟨h1, ⟨h2, h3⟩, h4⟩ q' ⟨k1, ⟨k2, k3⟩, k4⟩

/-- The square to the right of `exMesh`: [2,3]x[0,1]. -/
def rightLayer : Layer Rat := Layer.mk'
  [ Vertex.new (v2 2 0) [0, u32Max], Vertex.new (v2 3 0) [0, u32Max],
    Vertex.new (v2 3 1) [0, u32Max], Vertex.new (v2 2 1) [0, u32Max] ]
  [ Polygon.new [0, 1, 2, 3] false ]

/-- `exMesh`, and a second layer that continues it to the right. -/
def sideMesh : Mesh Rat := Mesh.ofLayers [exLayer, rightLayer]

/-- The two layers meet in two vertices. -/
def sideStitches : StitchVertices := [((0, 1), [(2, 0), (5, 3)])]

theorem sideStitches_exist : StitchesExist sideMesh sideStitches := by
  intro e he
  simp only [sideStitches, List.mem_singleton] at he
  subst he
  refine ⟨by decide, ?_⟩
  intro p hp
  simp only [List.mem_cons, List.not_mem_nil, or_false] at hp
  rcases hp with rfl | rfl <;> exact ⟨⟨_, _, rfl, rfl⟩, ⟨_, _, rfl, rfl⟩⟩

/-- Some vertices of layer 0 list their polygons in another order after the round trip. -/
example : resIs (sideMesh.stitchAtVertices insSorter sideStitches false) (fun m' =>
    (m'.removeStitches.layers[0]?.map (fun l => l.vertices.map (·.polygons))) !=
      (sideMesh.layers[0]?.map (fun l => l.vertices.map (·.polygons)))) = true := by
  decide +kernel

/-- Non-vacuity of `C79_round_trip`: the query around the corner is answered as before. -/
theorem C79_round_trip_example : ∃ m', sideMesh.stitchAtVertices insSorter sideStitches false = .ok m' ∧
    ∃ len, m'.removeStitches.path allBvh ratHeap ⟨false⟩ ⟨v2 (3/2) (1/2), some 0, u32Max⟩
        ⟨v2 (3/4) (3/2), some 0, u32Max⟩ = .ok (some ⟨len, [⟨1,1⟩, ⟨3/4,3/2⟩], []⟩) := by
  obtain ⟨m', h1, h2⟩ := C79_round_trip allBvh (heap := ratHeap) maxHeap_byCost ⟨false⟩ (fun h => by cases h)
    (unstitched_of_check (m := sideMesh) (by decide +kernel)) sideStitches sideStitches_exist false insSorter
    insSorter_ok (oneAcross_of_check (P' := fun id => idLayer id == 0) (fun id h => by simpa using h.2)
      (by decide +kernel))
  refine ⟨m', h1, 633061/500000, ?_⟩
  have hf : resIs (sideMesh.stitchAtVertices insSorter sideStitches false) (fun m' =>
      (m'.layers[0]?.map (fun l => l.vertices.map (·.isCorner))) ==
        (sideMesh.layers[0]?.map (fun l => l.vertices.map (·.isCorner)))) = true := by decide +kernel
  obtain ⟨m2, e2, hf⟩ := of_resIs hf
  rw [h1] at e2
  cases e2
  rw [h2 ?_ _ _ 1 2 ⟨⟨_, _, rfl, rfl⟩, rfl⟩ ⟨⟨_, _, rfl, rfl⟩, rfl⟩ (endpointPolygon_located.1 (by decide +kernel))
    (endpointPolygon_located.1 (by decide +kernel))]
  · decide +kernel
  · intro l l' i x x' hl hl' hx hx'
    rw [beq_iff_eq, hl, hl'] at hf
    simp only [Option.map_some, Option.some.injEq] at hf
    have := congrArg (·[i]?) hf
    simp only [List.getElem?_map, hx, hx', Option.map_some, Option.some.injEq] at this
    exact this

/-- Non-vacuity of `C79_reorder`: `exMesh` lists its polygons in another order than `reorder_neighbors` does, and the
query around the corner is answered alike, with `detailed-layers`. -/
theorem C79_reorder_example : ∃ m', exMesh.reorderNeighbors insSorter = .ok m' ∧
    ∃ len, m'.path allBvh ratHeap ⟨true⟩ (Coords.onMesh (v2 (3/2) (1/2))) (Coords.onMesh (v2 (3/4) (3/2))) =
      .ok (some ⟨len, [⟨1,1⟩, ⟨3/4,3/2⟩], [(⟨1,1⟩,0), (⟨3/4,3/2⟩,0)]⟩) := by
  obtain ⟨m', h1, h2⟩ := C79_reorder allBvh (heap := ratHeap) maxHeap_byCost ⟨true⟩ (fun _ => by unfold Mesh.SmallNumbers; decide +kernel)
    (m := exMesh) (refs_of_check (by decide +kernel)) insSorter insSorter_ok
    (oneAcross_of_check (P' := fun _ => true) (fun _ _ => rfl) (by decide +kernel))
  refine ⟨m', h1, 633061/500000, ?_⟩
  have hf : resIs (exMesh.reorderNeighbors insSorter) (fun m' =>
      (m'.layers.map (fun l => l.vertices.map (·.isCorner))) ==
        (exMesh.layers.map (fun l => l.vertices.map (·.isCorner)))) = true := by decide +kernel
  obtain ⟨m2, e2, hf⟩ := of_resIs hf
  rw [h1] at e2
  cases e2
  rw [h2 ?_ _ _ 1 2 (exMesh_has 1 (by simp)) (exMesh_has 2 (by simp))
    (endpointPolygon_located.1 (by decide +kernel)) (endpointPolygon_located.1 (by decide +kernel))]
  · decide +kernel
  · intro k l l' i x x' hl hl' hx hx'
    rw [beq_iff_eq] at hf
    have hf := congrArg (·[k]?) hf
    simp only [List.getElem?_map, hl, hl', Option.map_some, Option.some.injEq] at hf
    have := congrArg (·[i]?) hf
    simp only [List.getElem?_map, hx, hx', Option.map_some, Option.some.injEq] at this
    exact this

end Polyanya
