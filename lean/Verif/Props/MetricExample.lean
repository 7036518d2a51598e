import Verif.Props.Metric
import Verif.Props.PatchExample
/-
Concrete queries that meet the hypotheses of C61.
-/

namespace Polyanya

/-- Can every crossing be reversed? -/
def twoWayCheck (m : Mesh (Ext ℚ)) : Bool :=
  (crossings m).all fun c => [⟨c.dst, c.src, c.b, c.a⟩].any fun c' : Crossing =>
    validCheck m c' && decide (endsOf m c' = (endsOf m c).map Prod.swap)

theorem twoWay_of_check {m : Mesh (Ext ℚ)} (h : twoWayCheck m = true) : TwoWay m.real := by
  intro c hv A B hat
  have hc := List.all_eq_true.1 h c (mem_crossings (valid_real.1 hv))
  obtain ⟨X, Y, hXY, rfl, rfl⟩ := at_real.1 hat
  simp only [List.any_cons, List.any_nil, Bool.or_false, Bool.and_eq_true, decide_eq_true_iff] at hc
  rw [endsOf_eq.2 hXY] at hc
  exact ⟨⟨c.dst, c.src, c.b, c.a⟩, valid_real.2 (valid_of_check hc.1), rfl, rfl,
    at_real.2 ⟨Y, X, endsOf_eq.1 hc.2, rfl, rfl⟩⟩

/-- A point in a known polygon. -/
def placed (p : Vec2 ℚ) (id : UInt32) : Coords (Ext ℝ) := { pos := p.real.fin, layer := some 0, polygonIndex := id }

theorem located_placed {m : Mesh (Ext ℝ)} {bvh : Bvh (Ext ℝ)} {p : Vec2 ℚ} {id : UInt32} (h : id ≠ u32Max) :
    Located m bvh (placed p id) id := .inl ⟨h, rfl⟩

theorem patch_exact {p q : Vec2 ℚ} {s e : UInt32} (hs : s ≠ u32Max) (he : e ≠ u32Max)
    (hp : onGridPatch p = true) (hq : onGridPatch q = true)
    (h1 : InPolygon patchMesh s p) (h2 : InPolygon patchMesh e q)
    (h3 : shapeCheckIn patchMesh s p 4 (polygonIds patchMesh) = true) (h4 : cornersCheck patchMesh p q = true) :
    ExactQuery patchMesh.real everyIndex (placed p s) p.real s (placed q e) q.real e where
  start_pos := rfl
  goal_pos := rfl
  start_loc := located_placed hs
  goal_loc := located_placed he
  start_in := inPolygon_real h1
  goal_in := inPolygon_real h2
  navigable := navigable_of_shape (n := 4) (ids := polygonIds patchMesh) h3 (corners_of_check h4)
    (fun _ _ _ _ _ hr hx hy h => noSliver_of_grid (N := 8) (by norm_num) (by norm_num) (by norm_num)
      (fun _ => patch_onGrid) (onGrid_real (onGridPatch_spec hp)) hr hx hy h)
  noNearMiss := noNearMiss_of_grid (N := 8) (by norm_num) (by norm_num) (by norm_num) (by norm_num)
    (fun _ => patch_onGrid) (onGrid_real (onGridPatch_spec hp)) (onGrid_real (onGridPatch_spec hq))

theorem patch_twoWay : TwoWay patchMesh.real := twoWay_of_check (by decide +kernel)

theorem patch_sized : patchMesh.real.Sized := by
  intro l hl
  have hlay : l = patchLayer.real := by simpa [patchMesh, Mesh.ofLayers, Mesh.real] using hl
  subst hlay
  simp [patchLayer, Layer.mk', Layer.real]

/-- The hypotheses of C61 are met on four squares around a vertex: from (8, 8) to (24, 24) and back, and over (24, 8). -/
example (heap : Heap (Ext ℝ)) (hmax : heap.Max) (p p' q r : Path (Ext ℝ))
    (h : patchMesh.real.path everyIndex heap ⟨false⟩ (placed ⟨8, 8⟩ 0) (placed ⟨24, 24⟩ 3) = .ok (some p))
    (h' : patchMesh.real.path everyIndex heap ⟨false⟩ (placed ⟨24, 24⟩ 3) (placed ⟨8, 8⟩ 0) = .ok (some p'))
    (hq : patchMesh.real.path everyIndex heap ⟨false⟩ (placed ⟨8, 8⟩ 0) (placed ⟨24, 8⟩ 1) = .ok (some q))
    (hr : patchMesh.real.path everyIndex heap ⟨false⟩ (placed ⟨24, 8⟩ 1) (placed ⟨24, 24⟩ 3) = .ok (some r)) :
    p.length = p'.length ∧ ∃ lq lr lp : ℝ, q.length = .fin lq ∧ r.length = .fin lr ∧ p.length = .fin lp ∧ lp ≤ lq + lr := by
  have k1 : ExactQuery patchMesh.real everyIndex (placed ⟨8, 8⟩ 0) (⟨8, 8⟩ : Vec2 ℚ).real 0 (placed ⟨24, 24⟩ 3)
      (⟨24, 24⟩ : Vec2 ℚ).real 3 := patch_exact (by decide) (by decide) (by decide +kernel) (by decide +kernel)
    (inPolygon_of_check (by decide +kernel)) (inPolygon_of_check (by decide +kernel)) (by decide +kernel) (by decide +kernel)
  have k2 : ExactQuery patchMesh.real everyIndex (placed ⟨24, 24⟩ 3) (⟨24, 24⟩ : Vec2 ℚ).real 3 (placed ⟨8, 8⟩ 0)
      (⟨8, 8⟩ : Vec2 ℚ).real 0 := patch_exact (by decide) (by decide) (by decide +kernel) (by decide +kernel)
    (inPolygon_of_check (by decide +kernel)) (inPolygon_of_check (by decide +kernel)) (by decide +kernel) (by decide +kernel)
  have k3 : ExactQuery patchMesh.real everyIndex (placed ⟨8, 8⟩ 0) (⟨8, 8⟩ : Vec2 ℚ).real 0 (placed ⟨24, 8⟩ 1)
      (⟨24, 8⟩ : Vec2 ℚ).real 1 := patch_exact (by decide) (by decide) (by decide +kernel) (by decide +kernel)
    (inPolygon_of_check (by decide +kernel)) (inPolygon_of_check (by decide +kernel)) (by decide +kernel) (by decide +kernel)
  have k4 : ExactQuery patchMesh.real everyIndex (placed ⟨24, 8⟩ 1) (⟨24, 8⟩ : Vec2 ℚ).real 1 (placed ⟨24, 24⟩ 3)
      (⟨24, 24⟩ : Vec2 ℚ).real 3 := patch_exact (by decide) (by decide) (by decide +kernel) (by decide +kernel)
    (inPolygon_of_check (by decide +kernel)) (inPolygon_of_check (by decide +kernel)) (by decide +kernel) (by decide +kernel)
  exact ⟨C61_symmetric everyIndex heap heap hmax hmax ⟨false⟩ _ patch_sized (conforming_real patch_conforming)
      patch_twoWay _ _ _ _ (Cfg.plain_default _ _ _) (Cfg.plain_default _ _ _) 0 3 k1 k2 p p' h h',
    C61_triangle everyIndex heap hmax ⟨false⟩ _ patch_sized (conforming_real patch_conforming) _ _ _ _ _ _ (Cfg.plain_default _ _ _) (Cfg.plain_default _ _ _)
      (Cfg.plain_default _ _ _) 0 1 3
      k3 k4 k1 q r p hq hr h⟩

/-- A path of the dart is found, so the hypotheses about returned paths are met as well; its length is positive. -/
example (heap : Heap (Ext ℝ)) (hmax : heap.Max) :
    ∃ p l, dartMesh.real.path everyIndex heap ⟨false⟩ dartStart dartGoal = .ok (some p) ∧ p.length = .fin l ∧
      dist2 (⟨24, 16⟩ : Vec2 ℚ).real (⟨24, -16⟩ : Vec2 ℚ).real ≤ l := by
  obtain ⟨p, hp, -⟩ := dart_shortest heap hmax
  obtain ⟨l, h1, h2, -⟩ := C61_zero everyIndex heap hmax ⟨false⟩ dartMesh.real
    (fun l hl => (dart_wf.layer l hl).sized) dart_setting.conforming dartStart dartGoal _ _ (Cfg.plain_default _ _ _) 0 1
    ⟨rfl, rfl, .inl ⟨by decide, rfl⟩, .inl ⟨by decide, rfl⟩, dart_setting.src_in, dart_setting.dst_in, dart_navigable,
      dart_noNearMiss⟩ p hp
  exact ⟨p, l, hp, h1, h2⟩

end Polyanya
