import Verif.Props.MergeWalk
import Verif.Proofs.CastMerge
import Verif.Props.MetricExample
/-
A concrete case for C64: three triangles, that merging makes a triangle and a quadrangle, with a reflex corner between
them.
-/

namespace Polyanya

/-- Three triangles with the reflex corner (16, 0). -/
def arrowLayer : Layer (Ext ℚ) := Layer.mk'
  [ Vertex.new (e2 0 0) [2, 0, u32Max, 1], Vertex.new (e2 16 0) [0, 2, u32Max],
    Vertex.new (e2 32 16) [0, u32Max], Vertex.new (e2 0 (-16)) [1, u32Max], Vertex.new (e2 32 (-16)) [2, 1, u32Max] ]
  [ Polygon.new [0, 1, 2] false, Polygon.new [0, 3, 4] false, Polygon.new [0, 4, 1] false ]

def arrowMesh : Mesh (Ext ℚ) := Mesh.ofLayers [arrowLayer]

/-- What merging makes of it. -/
def barbLayer : Layer (Ext ℚ) :=
  { arrowLayer with
    vertices :=
      [ Vertex.new (e2 0 0) [1, 0, u32Max, 1], Vertex.new (e2 16 0) [0, 1, u32Max],
        Vertex.new (e2 32 16) [0, u32Max], Vertex.new (e2 0 (-16)) [1, u32Max], Vertex.new (e2 32 (-16)) [1, u32Max] ]
    polygons := [ Polygon.new [0, 1, 2] false, Polygon.new [0, 3, 4, 1] false ] }

def barbMesh : Mesh (Ext ℚ) := Mesh.ofLayers [barbLayer]

theorem arrow_merges : arrowMesh.mergePolygons extGeo = .ok (barbMesh, true) := by
  obtain ⟨⟨l, b⟩, h1, h2⟩ := of_resIs (x := arrowLayer.mergePolygons extGeo) (f := fun r =>
    r.2 && (decide (r.1.vertices = barbLayer.vertices) && (decide (r.1.polygons = barbLayer.polygons) &&
      (decide (r.1.offset = barbLayer.offset) && (decide (r.1.scale = barbLayer.scale) &&
      (r.1.baked.isNone && r.1.islands.isNone)))))) (by decide +kernel)
  simp only [Bool.and_eq_true, decide_eq_true_eq, Option.isNone_iff_eq_none] at h2
  obtain ⟨rfl, k1, k2, k3, k4, k5, k6⟩ := h2
  have : l = barbLayer := by
    cases l
    simp only at k1 k2 k3 k4 k5 k6
    subst k1 k2 k3 k4 k5 k6
    rfl
  subst this
  unfold Mesh.mergePolygons
  change (mergeLayers extGeo [arrowLayer] >>= _) = _
  rw [mergeLayers, h1]
  rfl

theorem arrow_rounds : MergeRounds extGeo.lift arrowMesh.real 1 barbMesh.real := by
  refine .succ .zero ?_
  rw [mesh_mergePolygons_real, arrow_merges]
  rfl

theorem arrow_tiling : ∀ l ∈ arrowMesh.real.layers, l.Tiling Ext.value := by
  intro l hl
  have hlay : l = arrowLayer.real := by simpa [arrowMesh, Mesh.ofLayers, Mesh.real] using hl
  subst hlay
  exact tiling_ratio (tiling_of_check (consistent_of_check (by decide +kernel)) (by decide +kernel))

theorem arrow_finite : ∀ l ∈ arrowMesh.real.layers, l.FinitePlaces := by
  intro l hl
  have hlay : l = arrowLayer.real := by simpa [arrowMesh, Mesh.ofLayers, Mesh.real] using hl
  subst hlay
  exact finitePlaces_of_check (by decide +kernel) (by decide +kernel)

/-- Where one can walk in the three triangles one can walk in the two polygons, and the other way round. -/
theorem C64_walks_example : ∃ F, SameWalks arrowMesh.real barbMesh.real F :=
  C64_walks extGeo.lift extGeo_accepts _ _ 1 rfl arrow_tiling arrow_finite arrow_rounds

/-! ### Paths -/

theorem arrow_conforming : Conforming arrowMesh := conforms_of_check (by decide +kernel)
theorem barb_conforming : Conforming barbMesh := conforms_of_check (by decide +kernel)

/-- Is the point on the grid of step 4 with 8 × 8 cells? -/
def onGridArrow (v : Vec2 ℚ) : Bool :=
  (List.range 9).any fun i => (List.range 9).any fun j => decide (v = ⟨0 + 4 * i, -16 + 4 * j⟩)

theorem onGridArrow_spec {v : Vec2 ℚ} (h : onGridArrow v = true) : OnGrid (⟨0, -16⟩ : Vec2 ℚ) 4 8 v := by
  unfold onGridArrow at h
  simp only [List.any_eq_true, List.mem_range, decide_eq_true_iff] at h
  obtain ⟨i, hi, j, hj, rfl⟩ := h
  exact ⟨i, j, by omega, by omega, rfl⟩

theorem arrow_onGrid {v : Vec2 ℝ} (hv : IsVertex arrowMesh.real v) : OnGrid (⟨0, -16⟩ : Vec2 ℚ).real ((4 : ℚ) : ℝ) 8 v := by
  obtain ⟨w, hw, rfl⟩ := isVertex_real.1 hv
  exact onGrid_real (onGridArrow_spec (vertices_of_check (by decide +kernel) hw))

theorem barb_onGrid {v : Vec2 ℝ} (hv : IsVertex barbMesh.real v) : OnGrid (⟨0, -16⟩ : Vec2 ℚ).real ((4 : ℚ) : ℝ) 8 v := by
  obtain ⟨w, hw, rfl⟩ := isVertex_real.1 hv
  exact onGrid_real (onGridArrow_spec (vertices_of_check (by decide +kernel) hw))

theorem exact_on_grid {m : Mesh (Ext ℚ)} {p q : Vec2 ℚ} {s e : UInt32} {n : Nat}
    (hgrid : ∀ v, IsVertex m.real v → OnGrid (⟨0, -16⟩ : Vec2 ℚ).real ((4 : ℚ) : ℝ) 8 v) (hs : s ≠ u32Max) (he : e ≠ u32Max)
    (hp : onGridArrow p = true) (hq : onGridArrow q = true) (h1 : InPolygon m s p) (h2 : InPolygon m e q)
    (h3 : navCheck m s p n = true) : ExactQuery m.real everyIndex (placed p s) p.real s (placed q e) q.real e where
  start_pos := rfl
  goal_pos := rfl
  start_loc := located_placed hs
  goal_loc := located_placed he
  start_in := inPolygon_real h1
  goal_in := inPolygon_real h2
  navigable := navigable_of_check h3
    (fun _ _ _ _ _ hr hx hy h => noSliver_of_grid (N := 8) (by norm_num) (by norm_num) (by norm_num)
      hgrid (onGrid_real (onGridArrow_spec hp)) hr hx hy h)
  noNearMiss := noNearMiss_of_grid (N := 8) (by norm_num) (by norm_num) (by norm_num) (by norm_num)
    hgrid (onGrid_real (onGridArrow_spec hp)) (onGrid_real (onGridArrow_spec hq))

theorem arrow_exact : ExactQuery arrowMesh.real everyIndex (placed ⟨20, 8⟩ 0) (⟨20, 8⟩ : Vec2 ℚ).real 0
    (placed ⟨20, -8⟩ 2) (⟨20, -8⟩ : Vec2 ℚ).real 2 :=
  exact_on_grid (n := 3) (fun _ => arrow_onGrid) (by decide) (by decide) (by decide +kernel) (by decide +kernel)
    (inPolygon_of_check (by decide +kernel)) (inPolygon_of_check (by decide +kernel)) (by decide +kernel)

theorem barb_exact : ExactQuery barbMesh.real everyIndex (placed ⟨20, 8⟩ 0) (⟨20, 8⟩ : Vec2 ℚ).real 0
    (placed ⟨20, -8⟩ 1) (⟨20, -8⟩ : Vec2 ℚ).real 1 :=
  exact_on_grid (n := 3) (fun _ => barb_onGrid) (by decide) (by decide) (by decide +kernel) (by decide +kernel)
    (inPolygon_of_check (by decide +kernel)) (inPolygon_of_check (by decide +kernel)) (by decide +kernel)

/-- The point is in one polygon only. -/
theorem only_in {m : Mesh (Ext ℚ)} {x : Vec2 ℚ} {s : UInt32} (h : (polygonIds m).all (fun t => t == s ||
    match ringOf m t with
    | some ps => (outlineEdges ps).any fun e => decide (tri e.1 e.2 x < 0)
    | none => false) = true) (t : UInt32) (ht : InPolygon m.real t x.real) : t = s := by
  obtain ⟨ps, hr, hin⟩ := ht
  obtain ⟨qs, hq, rfl⟩ := ring_real.1 hr
  have hq' := hq
  obtain ⟨l, p, hp, -⟩ := hq'
  have hc := List.all_eq_true.1 h t (mem_polygonIds hp)
  rw [Bool.or_eq_true, beq_iff_eq] at hc
  refine hc.resolve_right fun hc => ?_
  split at hc
  · rename_i qs' hqs
    obtain rfl := (ringOf_eq hqs).unique hq
    obtain ⟨e, he, hneg⟩ := List.any_eq_true.1 hc
    have hneg := of_decide_eq_true hneg
    have := hin _ _ (consecutive_real.2 ⟨_, _, outlineEdges_consecutive he, rfl, rfl⟩)
    rw [tri_real] at this
    have : (0 : ℚ) ≤ tri e.1 e.2 x := by exact_mod_cast this
    linarith
  · simp at hc

/-- Where all exits of the polygon of the start lead to the polygon of the goal, a path is returned. -/
theorem path_to_neighbour {m : Mesh (Ext ℚ)} (hwf : m.real.WF ⟨false⟩) (hnan : m.real.NoNan) (hc : Conforming m)
    (hisl : ∀ l ∈ m.layers, l.islands = none) {p q : Vec2 ℚ} {s e : UInt32}
    (hq : ExactQuery m.real everyIndex (placed p s) p.real s (placed q e) q.real e) (hs : s ≠ u32Max) (he : e ≠ u32Max)
    (hse : s ≠ e) (hlay : 0 < m.layers.length)
    (hcount : 0 < (m.real.layers.map (fun l => l.polygons.length)).sum)
    {ws : List (Vec2 ℚ)} (hw : Walk m s p e q ws) (honly : (crossings m).all (fun c => !(c.src == s) || c.dst == e) = true)
    (heap : Heap (Ext ℝ)) (hmax : heap.Max) :
    ∃ r, m.real.path everyIndex heap ⟨false⟩ (placed p s) (placed q e) = .ok (some r) := by
  have hwfc : ∀ {x : Vec2 ℚ} {t : UInt32}, InPolygon m.real t x.real → (placed x t).WF m.real := by
    rintro x t ⟨ps, ⟨l, pl, hp, -⟩, -⟩
    refine ⟨?_, fun _ => ⟨_, _, hp⟩⟩
    intro i hi
    simp only [placed, Option.some.injEq] at hi
    subst hi
    simpa [Mesh.real] using hlay
  obtain ⟨r, hr⟩ := C10_path everyIndex heap ⟨false⟩ m.real (placed p s) (placed q e) []
    (everyIndex_complete.inRange) hwf hnan (hwfc hq.start_in) (hwfc hq.goal_in) (by simp)
  have hset : Setting ⟨⟨false⟩, m.real, ((placed p s).pos, s), ((placed q e).pos, e), []⟩ p.real q.real := {
    conforming := conforming_real hc
    exact := hq.noNearMiss
    nav := hq.navigable
    dst := he
    src := rfl
    goalAt := rfl
    src_in := hq.start_in
    dst_in := hq.goal_in
    plain := plain_of rfl
    free := rfl }
  have hwalk := walk_real hw
  rcases C54_complete everyIndex heap hmax ⟨false⟩ rfl m.real
    (fun l hl => (hwf.layer l hl).sized) hset.conforming (fun _ => .inl <| by
      intro l hl
      simp only [Mesh.real, List.mem_map] at hl
      obtain ⟨k, hk, rfl⟩ := hl
      exact hisl k hk) (placed p s) (placed q e) _ _ rfl rfl s e hq.start_loc hq.goal_loc hset.src_in hset.nav hset.dst_in
      hset.exact _ hwalk r hr with ⟨r, rfl, -⟩ | ⟨rfl, inst, inst', hi, hpoll⟩
  · exact ⟨r, hr⟩
  · exfalso
    obtain ⟨opt, -, k1, k2, -⟩ := shortest_of_held hset hwalk hse hi
    obtain ⟨n, hn, -⟩ := k2
    obtain ⟨k, hk⟩ : ∃ k, (m.real.layers.map (fun l => l.polygons.length)).sum * 10 = k + 1 :=
      ⟨(m.real.layers.map (fun l => l.polygons.length)).sum * 10 - 1, by omega⟩
    rw [hk] at hpoll
    refine found_at_once (k := k) hset ?_ k1 (List.ne_nil_of_mem hn) hpoll
    intro n hn
    obtain ⟨cs, hinv⟩ := gen_inv (q := ⟨⟨false⟩, m.real, ((placed p s).pos, s), ((placed q e).pos, e), []⟩) he (.setup hn)
    have hv := mem_crossings (valid_real.1 hinv.valid)
    obtain ⟨_, _, _, _, _, _, -, -, -, -, -, -, -, -, hA⟩ := hn.ex
    have hfrom : n.polygonFrom = s := (added_fields hA).1
    have := List.all_eq_true.1 honly _ hv
    simpa [SearchNode.crossing, hfrom] using this

theorem noNan_of_check {m : Mesh (Ext ℚ)}
    (h : (m.layers.all fun l => l.vertices.all fun v => (toFin (v.coords + l.offset)).isSome) = true) : m.real.NoNan := by
  apply noNan_of_finite
  intro l hl v hv
  simp only [Mesh.real, List.mem_map] at hl
  obtain ⟨k, hk, rfl⟩ := hl
  simp only [Layer.real, List.mem_map] at hv
  obtain ⟨w, hw, rfl⟩ := hv
  obtain ⟨y, hy⟩ := Option.isSome_iff_exists.1 (List.all_eq_true.1 (List.all_eq_true.1 h k hk) w hw)
  refine ⟨y.real, ?_⟩
  have := extReal_eq_fin.2 ⟨y, toFin_eq.1 hy, rfl⟩
  rw [extReal_add] at this
  exact this

theorem arrow_wf : arrowMesh.real.WF ⟨false⟩ := wf_of_check (by decide +kernel) _
theorem barb_wf : barbMesh.real.WF ⟨false⟩ := wf_of_check (by decide +kernel) _

theorem arrow_walk : Walk arrowMesh 0 ⟨20, 8⟩ 2 ⟨20, -8⟩ [⟨16, 0⟩, ⟨20, -8⟩] :=
  .cons (s' := 2) (straight_of_check (cs := [(⟨0, 2, 0, 1⟩, 1, 1)]) (by decide +kernel))
    (.cons (s' := 2) (straight_of_check (cs := []) (by decide +kernel)) (.nil (inPolygon_of_check (by decide +kernel))))

theorem barb_walk : Walk barbMesh 0 ⟨20, 8⟩ 1 ⟨20, -8⟩ [⟨16, 0⟩, ⟨20, -8⟩] :=
  .cons (s' := 1) (straight_of_check (cs := [(⟨0, 1, 0, 1⟩, 1, 1)]) (by decide +kernel))
    (.cons (s' := 1) (straight_of_check (cs := []) (by decide +kernel)) (.nil (inPolygon_of_check (by decide +kernel))))

/-- The hypotheses of C64 are met: before and after merging, a path around the corner is found, and the paths have the
same length. -/
theorem C64_lengths_example (heap : Heap (Ext ℝ)) (hmax : heap.Max) :
    ∃ p p', arrowMesh.real.path everyIndex heap ⟨false⟩ (placed ⟨20, 8⟩ 0) (placed ⟨20, -8⟩ 2) = .ok (some p) ∧
      barbMesh.real.path everyIndex heap ⟨false⟩ (placed ⟨20, 8⟩ 0) (placed ⟨20, -8⟩ 1) = .ok (some p') ∧
      p'.length = p.length := by
  obtain ⟨p, hp⟩ := path_to_neighbour arrow_wf (noNan_of_check (by decide +kernel)) arrow_conforming
    (by simp [arrowMesh, Mesh.ofLayers, arrowLayer, Layer.mk']) arrow_exact (by decide) (by decide) (by decide) (by decide)
    (by decide +kernel) arrow_walk (by decide +kernel) heap hmax
  obtain ⟨p', hp'⟩ := path_to_neighbour barb_wf (noNan_of_check (by decide +kernel)) barb_conforming
    (by simp [barbMesh, Mesh.ofLayers, barbLayer, arrowLayer, Layer.mk']) barb_exact (by decide) (by decide) (by decide)
    (by decide) (by decide +kernel) barb_walk (by decide +kernel) heap hmax
  exact ⟨p, p', hp, hp', C64_lengths everyIndex everyIndex heap heap hmax hmax ⟨false⟩ extGeo.lift extGeo_accepts
    _ _ 1 rfl arrow_tiling arrow_finite arrow_rounds (fun l hl => (arrow_wf.layer l hl).sized)
    (fun l hl => (barb_wf.layer l hl).sized) (conforming_real arrow_conforming) (conforming_real barb_conforming)
    _ _ _ _ _ _ (Cfg.plain_default _ _ _) (Cfg.plain_default _ _ _) 0 2 0 1 arrow_exact barb_exact (only_in (by decide +kernel)) (only_in (by decide +kernel)) p p' hp hp'⟩

end Polyanya
