import Verif.Proofs.NavCheck
import Verif.Proofs.AsyncLocate
import Verif.Spec.Turning
import Verif.Spec.WellFormed
/-
Decision procedures for the hypotheses of C56 on concrete meshes with rational coordinates.
-/

namespace Polyanya

variable {m : Mesh (Ext ℚ)}

/-- Does a wall end at `r`? -/
def wallCheck (m : Mesh (Ext ℚ)) (r : Vec2 ℚ) : Bool :=
  (polygonIds m).any fun id => match ringOf m id with
    | some ps => (List.range ps.length).any fun i =>
      match ps[i]?, ps[(i + 1) % ps.length]? with
      | some A, some B => (decide (r = A) || decide (r = B)) && (crossings m).all fun c =>
          !(decide (c.src = id) && decide (endsOf m c = some (A, B))) &&
          !(decide (c.dst = id) && decide (endsOf m c = some (B, A)))
      | _, _ => false
    | none => false

theorem notEnclosed_of_check {r : Vec2 ℚ} (h : wallCheck m r = true) : NotEnclosed m.real r.real := by
  intro _
  unfold wallCheck at h
  rw [List.any_eq_true] at h
  obtain ⟨id, -, h⟩ := h
  split at h
  swap
  · simp at h
  rename_i ps hps
  rw [List.any_eq_true] at h
  obtain ⟨i, hi, h⟩ := h
  split at h
  swap
  · simp at h
  rename_i A B hA hB
  simp only [Bool.and_eq_true, Bool.or_eq_true, decide_eq_true_iff, List.all_eq_true, Bool.not_eq_true',
    Bool.and_eq_false_iff, decide_eq_false_iff_not] at h
  obtain ⟨hr, h⟩ := h
  refine ⟨id, A.real, B.real, ⟨⟨ps.map Vec2.real, ring_real.2 ⟨ps, ringOf_eq hps, rfl⟩,
    consecutive_real.2 ⟨A, B, ⟨i, by simpa using hi, hA, hB⟩, rfl, rfl⟩⟩, ?_, ?_⟩, ?_⟩
  · intro c hc hs hat
    obtain ⟨x, y, hxy, e1, e2⟩ := at_real.1 hat
    obtain rfl := Vec2.real_injective e1
    obtain rfl := Vec2.real_injective e2
    rcases (h c (mem_crossings (valid_real.1 hc))).1 with h | h
    · exact h hs
    · exact h (endsOf_eq.2 hxy)
  · intro c hc hs hat
    obtain ⟨x, y, hxy, e1, e2⟩ := at_real.1 hat
    obtain rfl := Vec2.real_injective e1
    obtain rfl := Vec2.real_injective e2
    rcases (h c (mem_crossings (valid_real.1 hc))).2 with h | h
    · exact h hs
    · exact h (endsOf_eq.2 hxy)
  · rcases hr with rfl | rfl
    · exact .inl rfl
    · exact .inr rfl

/-- Is the point different from all corners of polygons? -/
def offCheck (m : Mesh (Ext ℚ)) (r : Vec2 ℚ) : Bool :=
  (polygonIds m).all fun id => match ringOf m id with
    | some ps => !ps.contains r
    | none => false

theorem notEnclosed_of_off {r : Vec2 ℚ} (h : offCheck m r = true) : NotEnclosed m.real r.real := by
  rintro ⟨id, ps, hr, hmem⟩
  exfalso
  obtain ⟨qs, hq, rfl⟩ := ring_real.1 hr
  obtain ⟨w, hw, e⟩ := List.mem_map.1 hmem
  obtain rfl := Vec2.real_injective e
  have hq2 := hq
  obtain ⟨l, p, hh, -⟩ := hq2
  unfold offCheck at h
  rw [List.all_eq_true] at h
  have := h id (mem_polygonIds hh)
  split at this
  · rename_i ps hps
    rw [(ringOf_eq hps).unique hq] at this
    simp [hw] at this
  · simp at this

/-- Is no corner at which paths bend enclosed? -/
def bendsCheck (m : Mesh (Ext ℚ)) : Bool :=
  m.layers.all fun l => l.vertices.all fun v => !v.isCorner ||
    match toFin (v.coords + l.offset) with
    | some x => wallCheck m x
    | none => true

theorem bends_of_check (h : bendsCheck m = true) : ∀ r, BendPoint m.real [] r → NotEnclosed m.real r := by
  rintro r ⟨l, hl, v, hv, hr, hb⟩
  simp only [Mesh.real, List.mem_map] at hl
  obtain ⟨k, hk, rfl⟩ := hl
  simp only [Layer.real, List.mem_map] at hv
  obtain ⟨w, hw, rfl⟩ := hv
  have hcorner : w.isCorner = true := by
    rcases hb with hb | ⟨hb, -⟩
    · exact hb
    · exact absurd rfl hb
  change w.coords.extReal + k.offset.extReal = r.fin at hr
  rw [← extReal_add] at hr
  obtain ⟨y, hy, rfl⟩ := extReal_eq_fin.1 hr
  unfold bendsCheck at h
  rw [List.all_eq_true] at h
  have h1 := h k hk
  rw [List.all_eq_true] at h1
  have h2 := h1 w hw
  rw [hcorner, toFin_eq.2 hy] at h2
  exact notEnclosed_of_check (by simpa using h2)

/-- Are all references in range, is no finder and are no islands baked, are all positions finite? -/
def soundCheck (m : Mesh (Ext ℚ)) : Bool :=
  decide (m.layers.length ≤ 256) && m.layers.all fun l =>
    decide (l.polygons.length ≤ 2 ^ 24 - 1) && l.baked.isNone && l.islands.isNone &&
    (l.polygons.all fun p => !p.vertices.isEmpty && p.vertices.all fun v => decide (v.toNat < l.vertices.length)) &&
    l.vertices.all fun v => (toFin (v.coords + l.offset)).isSome &&
      v.polygons.all fun id => decide (id = u32Max) || match m.layers[idLayer id]? with
        | some l' => decide (idPolygon id < l'.polygons.length)
        | none => false

theorem sound_layer (h : soundCheck m = true) {l : Layer (Ext ℝ)} (hl : l ∈ m.real.layers) :
    l.WF ∧ l.baked = none ∧ l.islands = none := by
  simp only [soundCheck, Bool.and_eq_true, List.all_eq_true] at h
  simp only [Mesh.real, List.mem_map] at hl
  obtain ⟨k, hk, rfl⟩ := hl
  obtain ⟨⟨⟨⟨h1, h2⟩, h3⟩, h4⟩, -⟩ := h.2 k hk
  simp only [Option.isNone_iff_eq_none, decide_eq_true_iff] at h1 h2 h3
  refine ⟨⟨⟨by simpa [Layer.real] using h1, ?_, ?_⟩, ?_⟩, by simp [Layer.real, h2], by simpa [Layer.real] using h3⟩
  · intro p hp
    have := (h4 p hp).1
    simpa using this
  · intro boxes hb
    simp [Layer.real, h2] at hb
  · intro p hp v hv
    have := (h4 p hp).2 v hv
    simpa [Layer.real] using this

theorem sound_wf (h : soundCheck m = true) : m.real.WF ⟨false⟩ where
  layers := by
    simp only [soundCheck, Bool.and_eq_true, decide_eq_true_iff] at h
    simpa [Mesh.real] using h.1
  layer l hl := (sound_layer h hl).1
  refs := by
    intro l hl v hv id hid hne
    simp only [soundCheck, Bool.and_eq_true, List.all_eq_true] at h
    simp only [Mesh.real, List.mem_map] at hl
    obtain ⟨k, hk, rfl⟩ := hl
    simp only [Layer.real, List.mem_map] at hv
    obtain ⟨w, hw, rfl⟩ := hv
    have := ((h.2 k hk).2 w hw).2 id hid
    simp only [hne, decide_false, Bool.false_or] at this
    split at this
    · rename_i l' hl'
      simp only [decide_eq_true_iff] at this
      exact ⟨_, _, hasPolygon_real.2 ⟨l', ⟨hl', List.getElem?_eq_getElem this⟩, rfl⟩⟩
    · simp at this
  vertices := by simp

theorem sound_noNan (h : soundCheck m = true) : m.real.NoNan where
  dist := by
    have fin : ∀ l ∈ m.real.layers, ∀ v ∈ l.vertices, ∃ x : Vec2 ℝ, v.coords + l.offset = x.fin := by
      intro l hl v hv
      simp only [soundCheck, Bool.and_eq_true, List.all_eq_true] at h
      simp only [Mesh.real, List.mem_map] at hl
      obtain ⟨k, hk, rfl⟩ := hl
      simp only [Layer.real, List.mem_map] at hv
      obtain ⟨w, hw, rfl⟩ := hv
      obtain ⟨y, hy⟩ := Option.isSome_iff_exists.1 ((h.2 k hk).2 w hw).1
      refine ⟨y.real, ?_⟩
      have := extReal_eq_fin.2 ⟨y, toFin_eq.1 hy, rfl⟩
      rw [extReal_add] at this
      exact this
    intro l hl v hv l' hl' v' hv'
    obtain ⟨x, hx⟩ := fin l hl v hv
    obtain ⟨y, hy⟩ := fin l' hl' v' hv'
    rw [hx, hy, fin_distanceSquared]
    rfl

theorem searchable_of_check (h : soundCheck m = true) : m.real.Searchable where
  layers := (sound_wf h).layers
  layer l hl := by
    obtain ⟨h1, h2, -⟩ := sound_layer h hl
    exact ⟨h1.toFindable, by simp [Layer.FinderOk, h2]⟩

theorem islands_of_check (h : soundCheck m = true) : ∀ l ∈ m.real.layers, l.islands = none :=
  fun _ hl => (sound_layer h hl).2.2

end Polyanya
