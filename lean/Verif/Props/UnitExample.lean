import Verif.Props.Unit
import Verif.Props.ShortestExample
/-
The hypotheses of C90 are met.
-/

namespace Polyanya

theorem ext_times_add {k : ℝ} (hk : k ≠ 0) (a b : Ext ℝ) (x : ℝ) :
    a +. b = Ext.fin x ↔ a.times k +. b.times k = Ext.fin (k * x) := by
  cases a <;> cases b <;> simp [Ext.times, Scalar.add, Ext.add]
  · rw [← mul_add]
    exact ⟨fun h => by rw [h], fun h => mul_left_cancel₀ hk h⟩
  · split <;> simp

theorem inUnit_times {k : ℝ} (hk : k ≠ 0) (m : Mesh (Ext ℝ)) : m.InUnit k (m.times k) := by
  unfold Mesh.InUnit Mesh.times
  rw [List.forall₂_map_right_iff, List.forall₂_same]
  intro l _
  refine ⟨rfl, ?_⟩
  simp only [Layer.times]
  rw [List.forall₂_map_right_iff, List.forall₂_same]
  intro v _
  refine ⟨rfl, rfl, fun x => ?_⟩
  have h1 := ext_times_add hk v.coords.x l.offset.x x.x
  have h2 := ext_times_add hk v.coords.y l.offset.y x.y
  have key : ∀ (p q : Vec2 (Ext ℝ)) (y : Vec2 ℝ), p + q = y.fin ↔ p.x +. q.x = Ext.fin y.x ∧ p.y +. q.y = Ext.fin y.y := by
    intro p q y
    constructor
    · intro h; exact ⟨congrArg Vec2.x h, congrArg Vec2.y h⟩
    · rintro ⟨h1, h2⟩
      change (⟨p.x +. q.x, p.y +. q.y⟩ : Vec2 (Ext ℝ)) = ⟨_, _⟩
      rw [h1, h2]
  rw [key, key]
  exact and_congr h1 h2

theorem dartLarge_setting {k : ℝ} (hk : 1 ≤ k) :
    Setting ⟨⟨false⟩, dartMesh.real.times k, (((⟨24, 16⟩ : Vec2 ℚ).real.times k).fin, 0),
      (((⟨24, -16⟩ : Vec2 ℚ).real.times k).fin, 1), []⟩
      ((⟨24, 16⟩ : Vec2 ℚ).real.times k) ((⟨24, -16⟩ : Vec2 ℚ).real.times k) := by
  have hk0 : 0 < k := by linarith
  have u := inUnit_times hk0.ne' dartMesh.real
  exact {
    conforming := unit_conforming u hk0 dart_setting.conforming
    exact := unit_noNearMiss u hk dart_noNearMiss
    nav := unit_navigable u hk dart_navigable
    dst := (by decide : (1 : UInt32) ≠ u32Max)
    src := rfl
    goalAt := rfl
    src_in := unit_inPolygon u hk0 dart_setting.src_in
    dst_in := unit_inPolygon u hk0 dart_setting.dst_in
    plain := plain_of rfl
    free := rfl }

theorem dartLarge_only {k : ℝ} (n : SearchNode (Ext ℝ))
    (h : SetupNode ⟨⟨false⟩, dartMesh.real.times k, (((⟨24, 16⟩ : Vec2 ℚ).real.times k).fin, 0),
      (((⟨24, -16⟩ : Vec2 ℚ).real.times k).fin, 1), []⟩ n) : n.polygonTo = 1 := by
  obtain ⟨l, p, es, e, st, sp, h1, h2, h3, h4, h5, h6, h7, h8, hA⟩ := h.ex
  rw [(added_fields hA).2.1]
  rcases h8 with h8 | ⟨-, l', p', k1, k2, k3⟩
  · exact h8
  · exfalso
    have : ∀ l' ∈ (dartMesh.real.times k).layers, ∀ p' ∈ l'.polygons, p'.isOneWay = true := by
      intro l' hl' p' hp'
      simp only [Mesh.times, Mesh.real, List.mem_map] at hl'
      obtain ⟨_, ⟨j, hj, rfl⟩, rfl⟩ := hl'
      have hf : ∀ k ∈ dartMesh.layers, ∀ p ∈ k.polygons, p.isOneWay = true := by decide +kernel
      exact hf j hj p' hp'
    rw [this _ (List.mem_of_getElem? k1) _ (List.mem_of_getElem? k2)] at k3
    cases k3

/-- The hypotheses of C90 are met: the path around the corner of the dart is found in every larger unit (if the search does not
fail), and its length is multiplied by the factor. -/
theorem C90_example (heap : Heap (Ext ℝ)) (hmax : heap.Max) {k : ℝ} (hk : 1 ≤ k) :
    ∃ (p : Path (Ext ℝ)) (len : ℝ), dartMesh.real.path everyIndex heap ⟨false⟩ dartStart dartGoal = .ok (some p) ∧
      p.length = Ext.fin len ∧
      ∀ r, (dartMesh.real.times k).path everyIndex heap ⟨false⟩
          { dartStart with pos := ((⟨24, 16⟩ : Vec2 ℚ).real.times k).fin }
          { dartGoal with pos := ((⟨24, -16⟩ : Vec2 ℚ).real.times k).fin } = .ok r →
        ∃ p', r = some p' ∧ p'.length = Ext.fin (k * len) := by
  have hk0 : 0 < k := by linarith
  have u := inUnit_times hk0.ne' dartMesh.real
  obtain ⟨p, hp, hsp⟩ := dart_shortest heap hmax
  have hsz : dartMesh.real.Sized := fun l hl => (dart_wf.layer l hl).sized
  have hsz' : (dartMesh.real.times k).Sized := by
    intro l hl
    simp only [Mesh.times, List.mem_map] at hl
    obtain ⟨l, hl, rfl⟩ := hl
    exact hsz l hl
  obtain ⟨-, h2⟩ := C90_larger_partial everyIndex everyIndex heap hmax ⟨false⟩ rfl hk dartMesh.real _ u hsz hsz'
    dart_setting.conforming dartStart dartGoal { dartStart with pos := ((⟨24, 16⟩ : Vec2 ℚ).real.times k).fin }
    { dartGoal with pos := ((⟨24, -16⟩ : Vec2 ℚ).real.times k).fin } _ _ rfl rfl rfl rfl 0 1 (.inl ⟨by decide, rfl⟩)
    (.inl ⟨by decide, rfl⟩) (.inl ⟨(by decide : (0 : UInt32) ≠ u32Max), rfl⟩) (.inl ⟨(by decide : (1 : UInt32) ≠ u32Max), rfl⟩) dart_setting.src_in dart_setting.dst_in
    dart_navigable dart_noNearMiss
  obtain ⟨hl, hf⟩ := h2 p hp
  obtain ⟨len, hlen⟩ : ∃ len : ℝ, p.length = Ext.fin len := by
    obtain ⟨ws, -, h, -⟩ := hsp; exact ⟨_, h⟩
  refine ⟨p, len, hp, hlen, fun r hr => ?_⟩
  rcases hf (fun _ => .inl <| by
      intro l hl
      simp only [dartMesh, Mesh.ofLayers, Mesh.real, Mesh.times, List.map_cons, List.map_nil, List.mem_singleton] at hl
      subst hl
      rfl) r hr with ⟨p', rfl⟩ | ⟨rfl, inst, inst', hset, hpoll⟩
  · obtain ⟨len', e1, e2⟩ := hl p' hr
    rw [hlen] at e1
    cases e1
    exact ⟨p', rfl, e2⟩
  · exfalso
    have hwalk := unit_walk u hk0 (walk_real dart_walk)
    obtain ⟨opt, -, k1, k2, -⟩ := shortest_of_held (dartLarge_setting hk) hwalk (by decide : (0 : UInt32) ≠ 1) hset
    obtain ⟨n, hn, -⟩ := k2
    exact found_at_once (k := 19) (dartLarge_setting hk) dartLarge_only k1 (List.ne_nil_of_mem hn) hpoll

/-- The hypotheses of C90 for `point_in_mesh` are met: the point (24, 17) is in the dart in every larger unit. -/
theorem C90_in_mesh_example {k : ℝ} (hk : 1 ≤ k) :
    (dartMesh.real.times k).pointInMesh everyIndex (Coords.onMesh (Vec2.times k ⟨24, 17⟩).fin) = .ok true := by
  have hk0 : 0 < k := by linarith
  have u := inUnit_times hk0.ne' dartMesh.real
  have hs : dartMesh.real.Searchable := ⟨by decide, by
    intro l hl
    simp only [dartMesh, Mesh.ofLayers, Mesh.real, List.map_cons, List.map_nil, List.mem_singleton] at hl
    subst hl
    exact ⟨⟨by decide, by decide, by intro b h; cases h⟩, by intro b h; cases h⟩⟩
  have hs' : (dartMesh.real.times k).Searchable := ⟨by simp [Mesh.times, Mesh.real, dartMesh, Mesh.ofLayers], by
    intro l hl
    simp only [Mesh.times, List.mem_map] at hl
    obtain ⟨l, hl, rfl⟩ := hl
    have h := hs.layer l hl
    simp only [dartMesh, Mesh.ofLayers, Mesh.real, List.map_cons, List.map_nil, List.mem_singleton] at hl
    subst hl
    exact ⟨⟨h.1.sized, h.1.nonempty, by intro b h; cases h⟩, by intro b h; cases h⟩⟩
  have off : dartLayer.real.offset = Vec2.fin ⟨0, 0⟩ := by
    simp [dartLayer, Layer.mk', Layer.real, Vec2.extReal, Vec2.zero, Vec2.fin, Ext.real, Scalar.lit]
  have grid : ∀ y : Vec2 ℝ, Probe (1 / 10) ⟨24, 17⟩ y → Sharp dartMesh.real y := by
    intro y hy
    refine sharp_of_grid (o := ⟨0, -24⟩) (u := 1 / 20) (N := 960) (by norm_num) (fun v hv => ?_) ?_
    · obtain ⟨i, j, hi, hj, rfl⟩ := dart_onGrid hv
      refine ⟨80 * i, 80 * j, by omega, by omega, ?_⟩
      simp only [Vec2.real]
      push_cast
      congr 1 <;> ring
    · obtain ⟨y1, y2⟩ := y
      obtain ⟨h1, h2⟩ := hy
      simp only at h1 h2
      have e1 : ∃ i : Nat, i ≤ 960 ∧ y1 = 0 + 1 / 20 * i := by
        rcases h1 with rfl | rfl | rfl
        · exact ⟨480, by omega, by norm_num⟩
        · exact ⟨482, by omega, by norm_num⟩
        · exact ⟨478, by omega, by norm_num⟩
      have e2 : ∃ i : Nat, i ≤ 960 ∧ y2 = -24 + 1 / 20 * i := by
        rcases h2 with rfl | rfl | rfl
        · exact ⟨820, by omega, by norm_num⟩
        · exact ⟨822, by omega, by norm_num⟩
        · exact ⟨818, by omega, by norm_num⟩
      obtain ⟨i, hi, rfl⟩ := e1
      obtain ⟨j, hj, rfl⟩ := e2
      exact ⟨i, j, hi, hj, rfl⟩
  have ho : ∀ l ∈ dartMesh.real.layers, ∃ o : Vec2 ℝ, l.offset = o.fin := by
    intro l hl
    simp only [dartMesh, Mesh.ofLayers, Mesh.real, List.map_cons, List.map_nil, List.mem_singleton] at hl
    subst hl
    exact ⟨_, off⟩
  have ho' : ∀ l ∈ (dartMesh.real.times k).layers, ∃ o : Vec2 ℝ, l.offset = o.fin := by
    intro l hl
    simp only [Mesh.times, List.mem_map] at hl
    obtain ⟨l, hl, rfl⟩ := hl
    obtain ⟨o, e⟩ := ho l hl
    exact ⟨o.times k, by simp [Layer.times, e, Vec2.fin, Vec2.times, Ext.times]⟩
  have hd : dartMesh.real.searchDelta = Ext.fin (1 / 10) := by
    change (dartMesh.searchDelta).real = _
    have : dartMesh.searchDelta = Ext.fin (1 / 10) := by decide +kernel
    rw [this]; simp [Ext.real]
  have hd' : (dartMesh.real.times k).searchDelta = Ext.fin (k * (1 / 10)) := by
    change dartMesh.real.searchDelta.times k = _
    rw [hd]; rfl
  have hin : InPolygon dartMesh.real 0 ⟨24, 17⟩ := by
    have := inPolygon_real (m := dartMesh) (id := 0) (x := ⟨24, 17⟩) (inPolygon_of_check (by decide +kernel))
    simpa [Vec2.real] using this
  have c1 := conforming_real dart_conforming
  obtain ⟨b, h1, h2⟩ := C77_point_in_mesh everyIndex everyIndex_complete dartMesh.real hs c1 ho (1 / 10) hd
    (Coords.onMesh (Vec2.fin ⟨24, 17⟩)) ⟨24, 17⟩ rfl grid
  have hal : Allowed (Coords.onMesh (Vec2.fin (⟨24, 17⟩ : Vec2 ℝ))) 0 := by intro _ h; cases h
  have hb : b = true := h2.2 ⟨0, ⟨24, 17⟩, by decide, hal, ⟨.inl rfl, .inl rfl⟩, 0, rfl, hin⟩
  rw [(C90_in_mesh_partial everyIndex everyIndex everyIndex_complete everyIndex_complete hk dartMesh.real _ u hs hs' c1 ho ho'
    (1 / 10) hd hd' (Coords.onMesh (Vec2.fin ⟨24, 17⟩)) (Coords.onMesh (Vec2.times k ⟨24, 17⟩).fin) ⟨24, 17⟩ rfl rfl rfl grid).1,
    h1, hb]
end Polyanya
