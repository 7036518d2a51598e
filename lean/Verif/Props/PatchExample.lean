import Verif.Props.Shortest
import Verif.Props.ShortestExample
import Verif.Proofs.SurroundCheck
/-
C54 on a mesh with a vertex in its interior, that is not flagged as a corner: the shortest path goes through it.
-/

namespace Polyanya

/-- Four squares around the vertex (16, 16). -/
def patchLayer : Layer (Ext ℚ) := Layer.mk'
  [ Vertex.new (e2 0 0) [0, u32Max], Vertex.new (e2 16 0) [0, u32Max, 1], Vertex.new (e2 32 0) [1, u32Max],
    Vertex.new (e2 0 16) [0, 2, u32Max], Vertex.new (e2 16 16) [0, 1, 3, 2], Vertex.new (e2 32 16) [1, u32Max, 3],
    Vertex.new (e2 0 32) [2, u32Max], Vertex.new (e2 16 32) [2, 3, u32Max], Vertex.new (e2 32 32) [3, u32Max] ]
  [ Polygon.new [0, 1, 4, 3] false, Polygon.new [1, 2, 5, 4] false, Polygon.new [3, 4, 7, 6] false,
    Polygon.new [4, 5, 8, 7] false ]

def patchMesh : Mesh (Ext ℚ) := Mesh.ofLayers [patchLayer]

/-- The vertex in the middle is not flagged as a corner. -/
example : (patchLayer.vertices.map (·.isCorner)) = [true, true, true, true, false, true, true, true, true] := by
  decide +kernel

theorem patch_conforming : Conforming patchMesh := conforms_of_check (by decide +kernel)

/-- Is the point on the grid of step 4 with 8 × 8 cells? -/
def onGridPatch (v : Vec2 ℚ) : Bool :=
  (List.range 9).any fun i => (List.range 9).any fun j => decide (v = ⟨0 + 4 * i, 0 + 4 * j⟩)

theorem onGridPatch_spec {v : Vec2 ℚ} (h : onGridPatch v = true) : OnGrid (⟨0, 0⟩ : Vec2 ℚ) 4 8 v := by
  unfold onGridPatch at h
  simp only [List.any_eq_true, List.mem_range, decide_eq_true_iff] at h
  obtain ⟨i, hi, j, hj, rfl⟩ := h
  exact ⟨i, j, by omega, by omega, rfl⟩

theorem patch_onGrid {v : Vec2 ℝ} (hv : IsVertex patchMesh.real v) :
    OnGrid (⟨0, 0⟩ : Vec2 ℚ).real ((4 : ℚ) : ℝ) 8 v := by
  obtain ⟨w, hw, rfl⟩ := isVertex_real.1 hv
  exact onGrid_real (onGridPatch_spec (vertices_of_check (by decide +kernel) hw))

theorem patch_noNearMiss : NoNearMiss patchMesh.real (⟨8, 8⟩ : Vec2 ℚ).real (⟨24, 24⟩ : Vec2 ℚ).real :=
  noNearMiss_of_grid (N := 8) (by norm_num) (by norm_num) (by norm_num) (by norm_num) (fun _ => patch_onGrid)
    (onGrid_real (onGridPatch_spec (by decide +kernel))) (onGrid_real (onGridPatch_spec (by decide +kernel)))

/-- The vertex in the middle is surrounded. -/
theorem patch_surrounded : Surrounded patchMesh.real (⟨16, 16⟩ : Vec2 ℚ).real := surrounded_of_check (by decide +kernel)

/-- The vertices at the border are not. -/
example : ¬ Surrounded patchMesh.real (⟨16, 0⟩ : Vec2 ℚ).real := by
  intro h
  have hr : Ring patchMesh 0 [⟨0, 0⟩, ⟨16, 0⟩, ⟨16, 16⟩, ⟨0, 16⟩] := ringOf_eq (by decide +kernel)
  obtain ⟨c, h1, h2, h3⟩ := h.linked 0 _ (⟨0, 0⟩ : Vec2 ℚ).real (⟨16, 0⟩ : Vec2 ℚ).real (ring_real.2 ⟨_, hr, rfl⟩)
    (consecutive_real.2 ⟨_, _, ⟨0, by decide, rfl, rfl⟩, rfl, rfl⟩) (.inr rfl)
  obtain ⟨A, B, h4, h5, h6⟩ := at_real.1 h3
  obtain rfl := Vec2.real_injective h5
  obtain rfl := Vec2.real_injective h6
  have hall : (crossings patchMesh).all (fun c => !(decide (endsOf patchMesh c = some (⟨0, 0⟩, ⟨16, 0⟩)))) = true := by
    decide +kernel
  have := List.all_eq_true.1 hall c (mem_crossings (valid_real.1 h1))
  rw [endsOf_eq.2 h4] at this
  simp at this

theorem patch_navigable : Navigable patchMesh.real 0 (⟨8, 8⟩ : Vec2 ℚ).real 3 (⟨24, 24⟩ : Vec2 ℚ).real :=
  navigable_of_shape (n := 4) (ids := polygonIds patchMesh) (by decide +kernel) (corners_of_check (by decide +kernel))
    (fun _ _ _ _ _ hr hx hy h => noSliver_of_grid (N := 8) (by norm_num) (by norm_num) (by norm_num)
      (fun _ => patch_onGrid) (onGrid_real (onGridPatch_spec (by decide +kernel))) hr hx hy h)

/-- The straight walk goes through the vertex in the middle. -/
theorem patch_walk : Walk patchMesh 0 ⟨8, 8⟩ 3 ⟨24, 24⟩ [⟨24, 24⟩] :=
  .cons (s' := 3) (straight_of_check (cs := [(⟨0, 1, 1, 4⟩, 1, 1/2), (⟨1, 3, 5, 4⟩, 1, 0)]) (by decide +kernel))
    (.nil (inPolygon_of_check (by decide +kernel)))

def patchStart : Coords (Ext ℝ) := { pos := (⟨8, 8⟩ : Vec2 ℚ).real.fin, layer := some 0, polygonIndex := 0 }
def patchGoal : Coords (Ext ℝ) := { pos := (⟨24, 24⟩ : Vec2 ℚ).real.fin, layer := some 0, polygonIndex := 3 }

/-- The hypotheses of C54 are met, although a vertex on the shortest path is not flagged as a corner: a returned path
is as short as the straight line. -/
theorem patch_shortest (heap : Heap (Ext ℝ)) (hmax : heap.Max) (p : Path (Ext ℝ))
    (h : patchMesh.real.path everyIndex heap ⟨false⟩ patchStart patchGoal = .ok (some p)) :
    ShortestPath patchMesh.real 0 (⟨8, 8⟩ : Vec2 ℚ).real 3 (⟨24, 24⟩ : Vec2 ℚ).real p
    ∧ p.length = Ext.fin (dist2 (⟨8, 8⟩ : Vec2 ℚ).real (⟨24, 24⟩ : Vec2 ℚ).real) := by
  have hls : ∀ s, Located patchMesh.real everyIndex patchStart s → s = 0 := by
    rintro s (⟨-, h⟩ | ⟨h, -⟩)
    · exact h
    · exact absurd h (by decide)
  have hle : ∀ s, Located patchMesh.real everyIndex patchGoal s → s = 3 := by
    rintro s (⟨-, h⟩ | ⟨h, -⟩)
    · exact h
    · exact absurd h (by decide)
  have hsize : patchMesh.real.Sized := by
    intro l hl
    have hlay : l = patchLayer.real := by
      simpa [patchMesh, Mesh.ofLayers, Mesh.real] using hl
    subst hlay
    simp [patchLayer, Layer.mk', Layer.real]
  obtain ⟨s, e, h1, h2, hp⟩ := C54_shortest everyIndex heap hmax ⟨false⟩ rfl patchMesh.real hsize
    (conforming_real patch_conforming) patchStart patchGoal (⟨8, 8⟩ : Vec2 ℚ).real (⟨24, 24⟩ : Vec2 ℚ).real rfl rfl
    (fun s h => by rw [hls s h]; exact inPolygon_real (inPolygon_of_check (by decide +kernel)))
    (fun s h => by rw [hle s h]; exact inPolygon_real (inPolygon_of_check (by decide +kernel)))
    (fun s e h h' => by rw [hls s h, hle e h']; exact patch_navigable) patch_noNearMiss p h
  rw [hls s h1, hle e h2] at hp
  refine ⟨hp, ?_⟩
  obtain ⟨ws, -, w2, w3, w4⟩ := hp
  have h1 := w4 _ (walk_real patch_walk)
  obtain ⟨rs, -, h2⟩ := w3.route
  have h3 := routeLen_ge (⟨8, 8⟩ : Vec2 ℚ).real (⟨24, 24⟩ : Vec2 ℚ).real rs
  simp only [List.map_cons, List.map_nil, polyLen, add_zero] at h1
  rw [w2]
  congr 1
  exact le_antisymm h1 (h3.trans h2)

end Polyanya
