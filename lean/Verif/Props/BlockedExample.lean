import Verif.Props.Blocked
import Verif.Props.ShortestExample
import Verif.Proofs.EndsCheck
/-
A concrete mesh that meets the hypotheses of C59: the dart, with a second layer that fills the notch.
-/

namespace Polyanya

/-- Polygon 0 of layer 1. -/
def notchId : UInt32 := 16777216

/-- The two triangles of the dart, stitched to the triangle that fills the notch between them. -/
def notchMesh : Mesh (Ext ℚ) := Mesh.ofLayers
  [ Layer.mk'
      [ Vertex.new (e2 0 0) [0, 1, u32Max], Vertex.new (e2 16 0) [0, 1, notchId],
        Vertex.new (e2 32 24) [0, u32Max, notchId], Vertex.new (e2 32 (-24)) [1, u32Max, notchId] ]
      [ Polygon.new [0, 1, 2] false, Polygon.new [1, 0, 3] false ],
    Layer.mk'
      [ Vertex.new (e2 16 0) [notchId, 0, 1], Vertex.new (e2 32 (-24)) [notchId, u32Max, 1],
        Vertex.new (e2 32 24) [notchId, u32Max, 0] ]
      [ Polygon.new [0, 1, 2] false ] ]

theorem cutOff_real (m : Mesh (Ext ℚ)) (B : List UInt8) : m.real.cutOff B = (m.cutOff B).real := by
  unfold Mesh.real Mesh.cutOff
  simp only [List.map_map, Mesh.mk.injEq, and_true]
  apply List.map_congr_left
  intro l _
  simp only [Function.comp, Layer.cutOff, Layer.real, List.map_map, Layer.mk.injEq, and_true]
  apply List.map_congr_left
  intro v _
  rfl

theorem notch_conforming : Conforming notchMesh := conforms_of_check (by decide +kernel)

theorem notch_oneOtherSide : notchMesh.real.OneOtherSide := by
  intro c c' hc hc' h1 h2 h3
  have h : ∀ c ∈ crossings notchMesh, ∀ c' ∈ crossings notchMesh,
      c'.src = c.src → c'.a = c.a → c'.b = c.b → c'.dst = c.dst := by decide +kernel
  exact h c (mem_crossings (valid_real.1 hc)) c' (mem_crossings (valid_real.1 hc')) h1 h2 h3

theorem notch_onGrid {v : Vec2 ℝ} (hv : IsVertex notchMesh.real v) :
    OnGrid (⟨0, -24⟩ : Vec2 ℚ).real ((4 : ℚ) : ℝ) 12 v := by
  obtain ⟨w, hw, rfl⟩ := isVertex_real.1 hv
  exact onGrid_real (onGridDart_spec (vertices_of_check (by decide +kernel) hw))

theorem notch_noNearMiss : NoNearMiss notchMesh.real (⟨24, 16⟩ : Vec2 ℚ).real (⟨24, -16⟩ : Vec2 ℚ).real :=
  noNearMiss_of_grid (N := 12) (by norm_num) (by norm_num) (by norm_num) (by norm_num) (fun _ => notch_onGrid)
    (onGrid_real (onGridDart_spec (by decide +kernel))) (onGrid_real (onGridDart_spec (by decide +kernel)))

theorem notch_navigable :
    Navigable (notchMesh.real.cutOff [1]) 0 (⟨24, 16⟩ : Vec2 ℚ).real 1 (⟨24, -16⟩ : Vec2 ℚ).real := by
  rw [cutOff_real]
  refine navigable_of_checkIn (n := 2) (ids := [0, 1]) (by decide +kernel) ?_
  rw [← cutOff_real]
  exact fun _ _ _ _ _ hr hx hy h => noSliver_of_grid (N := 12) (by norm_num) (by norm_num) (by norm_num)
      (fun _ hv => notch_onGrid (isVertex_cutOff.1 hv)) (onGrid_real (onGridDart_spec (by decide +kernel))) hr hx hy h

/-- In the mesh without blocked layers one can go straight from the start to the goal, ... -/
theorem notch_open : Walk notchMesh 0 ⟨24, 16⟩ 1 ⟨24, -16⟩ [⟨24, -16⟩] :=
  .cons (s' := 1) (straight_of_check
      (cs := [(⟨0, notchId, 1, 2⟩, 1 / 2, 1 / 8), (⟨notchId, 1, 0, 1⟩, 1 / 2, 6 / 7)]) (by decide +kernel))
    (.nil (inPolygon_of_check (by decide +kernel)))

/-- ... and with layer 1 blocked one has to walk around the notch. -/
theorem notch_walk : Walk (notchMesh.cutOff [1]) 0 ⟨24, 16⟩ 1 ⟨24, -16⟩ [⟨16, 0⟩, ⟨24, -16⟩] :=
  .cons (s' := 1) (straight_of_check (cs := [(⟨0, 1, 0, 1⟩, 1, 1)]) (by decide +kernel))
    (.cons (s' := 1) (straight_of_check (cs := []) (by decide +kernel)) (.nil (inPolygon_of_check (by decide +kernel))))

theorem notch_setting : Setting ⟨⟨false⟩, notchMesh.real.cutOff [1], (dartStart.pos, 0), (dartGoal.pos, 1), []⟩
    (⟨24, 16⟩ : Vec2 ℚ).real (⟨24, -16⟩ : Vec2 ℚ).real where
  conforming := conforming_cutOff (conforming_real notch_conforming)
  exact := noNearMiss_cutOff notch_noNearMiss
  nav := notch_navigable
  dst := by decide
  src := rfl
  goalAt := rfl
  src_in := inPolygon_cutOff.2 (inPolygon_real (inPolygon_of_check (by decide +kernel)))
  dst_in := inPolygon_cutOff.2 (inPolygon_real (inPolygon_of_check (by decide +kernel)))
  plain := plain_of rfl
  free := rfl

theorem notch_only (n : SearchNode (Ext ℝ))
    (h : SetupNode ⟨⟨false⟩, notchMesh.real.cutOff [1], (dartStart.pos, 0), (dartGoal.pos, 1), []⟩ n) :
    n.polygonTo = 1 := by
  obtain ⟨cs, hinv⟩ := gen_inv (q := ⟨⟨false⟩, notchMesh.real.cutOff [1], (dartStart.pos, 0), (dartGoal.pos, 1), []⟩)
    (by decide) (Gen.setup h)
  have hv := hinv.valid
  rw [cutOff_real] at hv
  have hf : n.crossing.src = 0 := by
    obtain ⟨l, p, es, e, st, sp, h1, h2, h3, h4, h5, h6, h7, h8, hA⟩ := h.ex
    exact (added_fields hA).1
  have hd : ∀ c ∈ crossings (notchMesh.cutOff [1]), c.src = 0 → c.dst = 1 := by decide +kernel
  exact hd _ (mem_crossings (valid_real.1 hv)) hf

/-- The hypotheses of C59 are met: with layer 1 blocked, the query returns a shortest path around the notch. -/
theorem notch_shortest (heap : Heap (Ext ℝ)) (hmax : heap.Max) :
    ∃ p, notchMesh.real.pathOnLayers everyIndex heap ⟨false⟩ dartStart dartGoal [1] = .ok (some p) ∧
      ShortestAvoiding notchMesh.real [1] 0 (⟨24, 16⟩ : Vec2 ℚ).real 1 (⟨24, -16⟩ : Vec2 ℚ).real p := by
  have hcheck : soundCheck notchMesh = true := by decide +kernel
  have hw0 : dartStart.WF notchMesh.real := by
    refine ⟨?_, fun _ => ⟨_, _, hasPolygon_real.2 ⟨_, ⟨rfl, rfl⟩, rfl⟩⟩⟩
    intro i hi
    simp only [dartStart, Option.some.injEq] at hi
    subst hi
    simp [notchMesh, Mesh.ofLayers, Mesh.real]
  have hw1 : dartGoal.WF notchMesh.real := by
    refine ⟨?_, fun _ => ⟨_, _, hasPolygon_real.2 ⟨_, ⟨rfl, rfl⟩, rfl⟩⟩⟩
    intro i hi
    simp only [dartGoal, Option.some.injEq] at hi
    subst hi
    simp [notchMesh, Mesh.ofLayers, Mesh.real]
  obtain ⟨r, hr⟩ := C10_path everyIndex heap ⟨false⟩ notchMesh.real dartStart dartGoal [1]
    (everyIndex_complete.inRange) (sound_wf hcheck) (sound_noNan hcheck) hw0 hw1 (by simp)
  have hls : Located notchMesh.real everyIndex dartStart 0 := .inl ⟨by decide, rfl⟩
  have hle : Located notchMesh.real everyIndex dartGoal 1 := .inl ⟨by decide, rfl⟩
  have hwalk := walk_real notch_walk
  rw [← cutOff_real] at hwalk
  rcases C59_complete everyIndex heap hmax ⟨false⟩ notchMesh.real
    (fun l hl => ((sound_wf hcheck).layer l hl).sized) notch_oneOtherSide (conforming_real notch_conforming)
    (by simp [notchMesh, Mesh.ofLayers, Mesh.real]) [1] dartStart dartGoal _ _ (Cfg.plain_default _ _ _) rfl rfl 0 1 hls hle
    (inPolygon_cutOff.1 notch_setting.src_in) notch_navigable (inPolygon_cutOff.1 notch_setting.dst_in)
    notch_noNearMiss _ (C59_walks.1 hwalk) r hr with ⟨p, rfl, hp⟩ | ⟨rfl, inst, inst', hset, hpoll⟩
  · exact ⟨p, hr, hp⟩
  · exfalso
    obtain ⟨opt, -, k1, k2, -⟩ := shortest_of_held notch_setting hwalk (by decide) hset
    obtain ⟨n, hn, -⟩ := k2
    exact found_at_once (k := 29) notch_setting notch_only k1 (List.ne_nil_of_mem hn) hpoll

end Polyanya
