import Verif.Props.Cleanup
import Mathlib.Data.List.Sort
/-
Concrete cases for C23 and C28.
-/

namespace Polyanya

/-- Insertion sort by key. -/
def insSorter : Sorter := fun key l => l.insertionSort (fun a b => key a ≤ key b)

theorem insSorter_ok : insSorter.Ok := by
  intro key l
  refine ⟨List.perm_insertionSort _ l, ?_⟩
  haveI : Std.Total (fun a b : UInt32 => key a ≤ key b) := ⟨fun a b => le_total (key a) (key b)⟩
  haveI : IsTrans UInt32 (fun a b : UInt32 => key a ≤ key b) := ⟨fun _ _ _ h1 h2 => le_trans h1 h2⟩
  exact List.pairwise_insertionSort _ l

/-- References in range, decided by running through the mesh (used for examples only). -/
def refsCheck (m : Mesh Rat) : Bool :=
  m.layers.all (fun l => l.vertices.all (fun v => v.polygons.all (fun id => id == u32Max ||
    match m.layers[idLayer id]? with
    | some l' => (l'.polygons[idPolygon id]?).isSome
    | none => false)) &&
  l.polygons.all (fun p => p.vertices.all (fun v => decide (v.toNat < l.vertices.length))))

theorem refs_of_check {m : Mesh Rat} (h : refsCheck m = true) : m.RefsInRange := by
  simp only [refsCheck, List.all_eq_true, Bool.and_eq_true, Bool.or_eq_true, beq_iff_eq, decide_eq_true_eq] at h
  refine ⟨?_, fun l hl => (h l hl).2⟩
  intro l hl v hv id hid hne
  have := ((h l hl).1 v hv id hid).resolve_left hne
  split at this
  · rename_i l' hl'
    obtain ⟨p, hp⟩ := Option.isSome_iff_exists.1 this
    exact ⟨l', p, hl', hp⟩
  · simp at this

/-- The L-shaped mesh meets the hypotheses of C23. -/
theorem exMesh_refs : exMesh.RefsInRange := refs_of_check (by decide +kernel)


/-- There, the obstacle corner (1,1) gets its gap between squares 1 and 2, where the obstacle is. -/
example : resIs (exMesh.reorderNeighbors insSorter) (fun m =>
    m.layers.map (fun l => l.vertices.map (fun v => (v.polygons, v.isCorner))) ==
      [[([0, u32Max], true), ([1, 0, u32Max], true), ([1, u32Max], true), ([0, 2, u32Max], true),
        ([1, u32Max, 2, 0], true), ([1, u32Max], true), ([2, u32Max], true), ([2, u32Max], true)]]) = true := by
  decide +kernel

/-- Around (1,1), squares 0 and 1 touch the vertex once and are adjacent: the hypotheses of the gap clause. -/
example : TouchesOnce exMesh (v2 1 1) 0 := by
  intro l p h
  obtain ⟨rfl, rfl⟩ := hasPolygon_unique h (show HasPolygon exMesh 0 exLayer (Polygon.new [0, 1, 4, 3] false) from
    ⟨rfl, rfl⟩)
  refine ⟨by decide, 4, by decide, ?_⟩
  have : ∀ u ∈ [(0 : UInt32), 1, 4, 3], ∀ vx ∈ (exLayer.vertices[u.toNat]?).toList,
      (decide (((vx.coords + exLayer.offset).distanceSquared (v2 1 1) <. Scalar.lit 1 4) = true) == decide (u = 4)) = true := by
    decide +kernel
  intro u hu vx hvx
  have := this u hu vx (by rw [hvx]; simp)
  simp only [beq_iff_eq, Bool.decide_eq_true] at this
  rw [this, decide_eq_true_iff]

/-- A triangle with an unused vertex on each side of its vertices in the list. -/
def dirtyLayer : Layer Rat := Layer.mk'
  [ Vertex.new (v2 9 9) [u32Max], Vertex.new (v2 0 0) [0, u32Max], Vertex.new (v2 1 0) [0, u32Max],
    Vertex.new (v2 8 8) [], Vertex.new (v2 0 1) [0, u32Max] ]
  [ Polygon.new [1, 2, 4] false ]

/-- The same triangle, clean. -/
def cleanLayer : Layer Rat := Layer.mk'
  [ Vertex.new (v2 0 0) [0, u32Max], Vertex.new (v2 1 0) [0, u32Max], Vertex.new (v2 0 1) [0, u32Max] ]
  [ Polygon.new [0, 1, 2] false ]

deriving instance DecidableEq for Layer

theorem dirtyLayer_corners : dirtyLayer.CornersUsed := by
  have : ∀ p ∈ dirtyLayer.polygons, ∀ v ∈ p.vertices, ∃ vx ∈ (dirtyLayer.vertices[v.toNat]?).toList, vx.useless = false := by
    decide +kernel
  intro p hp v hv
  obtain ⟨vx, h, hu⟩ := this p hp v hv
  refine ⟨vx, by simpa using h, ?_⟩
  rw [← useless_iff, hu]; simp

example : dirtyLayer.removeUseless = .ok (cleanLayer, true) := by decide +kernel

/-- Two layers that both have unused vertices. -/
def dirtyMesh : Mesh Rat := Mesh.ofLayers [dirtyLayer, dirtyLayer]

/-- **C28** is false for meshes as stated ("cleans every layer"): the call stops at the first layer in which it
removed something. The hypotheses of the other theorems hold. -/
theorem C28_mesh_false : (∀ l ∈ dirtyMesh.layers, l.vertices.length < 2 ^ 32 ∧ l.CornersUsed) ∧
    ∃ m', dirtyMesh.removeUseless = .ok (m', true) ∧ ¬ ∀ l ∈ m'.layers, l.Clean := by
  refine ⟨?_, { dirtyMesh with layers := [cleanLayer, dirtyLayer] }, ?_, ?_⟩
  · intro l hl
    have : l = dirtyLayer := by simpa [dirtyMesh, Mesh.ofLayers] using hl
    subst this
    exact ⟨by decide, dirtyLayer_corners⟩
  · unfold Mesh.removeUseless
    have : removeUselessLayers dirtyMesh.layers = .ok ([cleanLayer, dirtyLayer], true) := by decide +kernel
    rw [this]; rfl
  · intro h
    exact h dirtyLayer (by simp) (Vertex.new (v2 9 9) [u32Max]) (by simp [dirtyLayer, Layer.mk']) (.inr rfl)

end Polyanya
