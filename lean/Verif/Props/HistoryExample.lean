import Verif.Props.History
import Verif.Props.NarrowerExample
/-
C78: a history, and what is not claimed.
-/

namespace Polyanya

/-- A geometry library that accepts every ring but the empty one. -/
def anyGeo (K : Type) [Scalar K] : Geo K := ⟨fun _ => Scalar.lit 1 0, fun cs => !cs.isEmpty⟩

theorem proper_of_lists {K : Type} [Scalar K] {l : Layer K} (h1 : l.Findable) (h2 : l.vertices.length < 2 ^ 32)
    (h3 : ∀ p ∈ l.polygons, ∀ v ∈ p.vertices, (l.vertices[v.toNat]?).any (fun vx => vx.polygons.any (· != u32Max)) = true)
    (h4 : ∀ v ∈ l.vertices, ∀ id ∈ v.polygons, id ≠ u32Max → id.toNat < l.polygons.length) : l.Proper := by
  refine ⟨h1, h2, fun p hp v hv => ?_, h4⟩
  have := h3 p hp v hv
  cases hx : l.vertices[v.toNat]? with
  | none => rw [hx] at this; simp at this
  | some vx =>
    rw [hx] at this
    simp only [Option.any_some, List.any_eq_true, bne_iff_ne] at this
    exact ⟨vx, rfl, this⟩

theorem notchLayers_proper : ∀ l ∈ notchLayers.layers, l.Proper := by
  intro l hl
  refine proper_of_lists ⟨?_, ?_, ?_⟩ ?_ ?_ (notchLayers_unstitched.refs l hl)
  all_goals
    simp only [notchLayers, Mesh.ofLayers, List.mem_cons, List.not_mem_nil, or_false] at hl
    rcases hl with rfl | rfl
  all_goals first | decide +kernel | simp [Layer.mk']

/-- Non-vacuity: stitch two layers, take the second one out, put the same layer (cleaned before) in its place, stitch again,
clean: all of it returns, and every query on the result returns (with the heap and the index of any polygon finder). -/
example (sorter : Sorter) (hsort : sorter.Ok) (bvh : Bvh (Ext ℚ)) (hb : bvh.InRange) (c : Coords (Ext ℚ)) :
    ∃ m1 m2 m3 m4 b new, notchLayers.stitchAtVertices sorter notchStitches false = .ok m1 ∧
      new ∈ notchLayers.layers ∧ m2 = { m1.removeStitchesTo 1 with layers := (m1.removeStitchesTo 1).layers.set 1 new } ∧
      m2.restitchAtVertices sorter 1 [] true = .ok m3 ∧ m3.removeUseless = .ok (m4, b) ∧
      Built (anyGeo _) sorter .joined m4 ∧ ∃ r, m4.pointInMesh bvh c = .ok r := by
  have hg : (anyGeo (Ext ℚ)).ccwConvex [] = false := rfl
  have h0 : Built (anyGeo (Ext ℚ)) sorter .loose notchLayers := .start (by decide) notchLayers_proper
  obtain ⟨m1, e1, h1⟩ := (C78_operations _ hg sorter hsort notchLayers).2.1 notchStitches false h0 notchStitches_exist
  have h2 := h1.unstitchLayer 1
  obtain ⟨new, hnew⟩ : ∃ new, new ∈ notchLayers.layers := ⟨_, List.mem_cons_self⟩
  have h3 := h2.replace h0 hnew
  obtain ⟨m3, e3, h3⟩ := (C78_operations _ hg sorter hsort _).2.2 1 [] true h3 (by intro e he; simp at he)
  obtain ⟨m4, b, e4, h4⟩ := (C78_operations _ hg sorter hsort m3).1 _ h3
  exact ⟨m1, _, m3, m4, b, new, e1, hnew, rfl, e3, e4, h4, (C78_point_queries _ hg sorter hsort _ m4 h4 bvh hb c).1⟩

/-- Two layers, not stitched: one square, and the three squares of the example. -/
def looseMesh : Mesh Rat := Mesh.ofLayers
  [ Layer.mk' [ Vertex.new (v2 10 10) [0, u32Max], Vertex.new (v2 11 10) [0, u32Max], Vertex.new (v2 11 11) [0, u32Max],
      Vertex.new (v2 10 11) [0, u32Max] ] [Polygon.new [0, 1, 2, 3] false],
    exLayer ]

theorem looseMesh_proper : ∀ l ∈ looseMesh.layers, l.Proper := by
  intro l hl
  simp only [looseMesh, Mesh.ofLayers, List.mem_cons, List.not_mem_nil, or_false] at hl
  rcases hl with rfl | rfl
  · exact proper_of_lists ⟨by decide, by decide, by simp [Layer.mk']⟩ (by decide) (by decide +kernel) (by decide +kernel)
  · exact proper_of_lists ⟨by decide, by decide, by simp [exLayer, Layer.mk']⟩ (by decide) (by decide +kernel)
      (by decide +kernel)

/-- C78 needs the layers to be stitched, if there are several: before `stitch_at_vertices` (or after `remove_stitches`) the
neighbours of a vertex are numbers within the layer, and the search takes them for polygons of the first layer. A path query
inside the second layer panics. -/
theorem C78_unstitched_false (sorter : Sorter) : Built (anyGeo Rat) sorter .loose looseMesh ∧
    looseMesh.path allBvh ratHeap ⟨false⟩ (Coords.onMesh (v2 (3/2) (1/2))) (Coords.onMesh (v2 (1/2) (3/2))) =
      .error .panic :=
  ⟨.start (by decide) looseMesh_proper, by decide +kernel⟩

/-- Stitching the two layers by an empty list of stitches is enough. -/
example (sorter : Sorter) (hsort : sorter.Ok) (cfg : Cfg) (src dst : Coords Rat) (blocked : List UInt8) :
    ∃ m', looseMesh.stitchAtVertices sorter [] false = .ok m' ∧
      (src.WF m' → dst.WF m' → (∀ l ∈ m'.layers, l.vertices.length ≤ 2 ^ 24) →
        ∃ r, m'.pathOnLayers allBvh ratHeap cfg src dst blocked = .ok r) := by
  have hg : (anyGeo Rat).ccwConvex [] = false := rfl
  obtain ⟨m', e, h⟩ := (C78_operations _ hg sorter hsort looseMesh).2.1 [] false (C78_unstitched_false sorter).1
    (by intro e he; simp at he)
  exact ⟨m', e, fun hs hd hv => C78_path _ hg sorter hsort _ m' h (.inl rfl) cfg (fun _ => hv)
    ⟨fun _ _ _ _ _ _ _ _ => rfl⟩ allBvh allBvh_inRange ratHeap src dst hs hd blocked (fun _ _ _ _ _ _ _ => rfl)⟩

end Polyanya
