import Verif.Proofs.NavCheck
/-
A decision procedure for `Surrounded` on concrete meshes with rational coordinates, with its correctness.
-/

namespace Polyanya

/-- The edges of a ring. -/
def ringEdges (ps : List (Vec2 ℚ)) : List (Vec2 ℚ × Vec2 ℚ) :=
  (List.range ps.length).filterMap fun i =>
    match ps[i]?, ps[(i + 1) % ps.length]? with
    | some a, some b => some (a, b)
    | _, _ => none

theorem mem_ringEdges {ps : List (Vec2 ℚ)} {a b : Vec2 ℚ} : (a, b) ∈ ringEdges ps ↔ Consecutive ps a b := by
  unfold ringEdges Consecutive
  rw [List.mem_filterMap]
  constructor
  · rintro ⟨i, hi, h⟩
    rw [List.mem_range] at hi
    split at h
    · rename_i x y hx hy
      simp only [Option.some.injEq, Prod.mk.injEq] at h
      obtain ⟨rfl, rfl⟩ := h
      exact ⟨i, hi, hx, hy⟩
    · simp at h
  · rintro ⟨i, hi, ha, hb⟩
    exact ⟨i, List.mem_range.2 hi, by rw [ha, hb]⟩

/-- One of the edges of `ps` at `x` has the corner of `ps'` at `x` on its right. -/
def splitCheck (x : Vec2 ℚ) (ps ps' : List (Vec2 ℚ)) : Bool :=
  (ringEdges ps).any fun e => (decide (e.1 = x) || decide (e.2 = x)) &&
    (ringEdges ps').any fun f => decide (f.2 = x) &&
      (ringEdges ps').any fun g => decide (g.1 = x) && decide (0 < tri x g.2 f.1) &&
        decide (tri e.1 e.2 g.2 ≤ 0) && decide (tri e.1 e.2 f.1 ≤ 0)

theorem split_of_check {x : Vec2 ℚ} {ps ps' : List (Vec2 ℚ)} (h : splitCheck x ps ps' = true) {z : Vec2 ℝ}
    (h1 : StrictInside (ps.map Vec2.real) z) (h2 : StrictInside (ps'.map Vec2.real) z) : False := by
  unfold splitCheck at h
  simp only [List.any_eq_true, Bool.and_eq_true, Bool.or_eq_true, decide_eq_true_iff] at h
  obtain ⟨⟨a, b⟩, he, hx, ⟨f, f2⟩, hf, rfl, ⟨g1, g⟩, hg, ⟨⟨rfl, k1⟩, k2⟩, k3⟩ := h
  simp only at *
  have t1 := h1 _ _ (consecutive_real.2 ⟨a, b, mem_ringEdges.1 he, rfl, rfl⟩)
  have t2 := h2 _ _ (consecutive_real.2 ⟨f, g1, mem_ringEdges.1 hf, rfl, rfl⟩)
  have t3 := h2 _ _ (consecutive_real.2 ⟨g1, g, mem_ringEdges.1 hg, rfl, rfl⟩)
  have r1 : 0 < tri g1.real g.real f.real := by rw [tri_real]; exact_mod_cast k1
  have r2 : tri a.real b.real g.real ≤ 0 := by rw [tri_real]; exact_mod_cast k2
  have r3 : tri a.real b.real f.real ≤ 0 := by rw [tri_real]; exact_mod_cast k3
  have hx' : g1.real = a.real ∨ g1.real = b.real := by
    rcases hx with h | h
    · exact .inl (by rw [h])
    · exact .inr (by rw [h])
  have e : tri g1.real g.real f.real * tri a.real b.real z
      = tri f.real g1.real z * tri a.real b.real g.real + tri g1.real g.real z * tri a.real b.real f.real := by
    rcases hx' with h | h
    · rw [h]; simp only [tri]; ring
    · rw [h]; simp only [tri]; ring
  have := mul_pos r1 t1
  have := mul_nonpos_of_nonneg_of_nonpos t2.le r2
  have := mul_nonpos_of_nonneg_of_nonpos t3.le r3
  linarith

/-- Decides `Surrounded`. -/
def surroundCheck (m : Mesh (Ext ℚ)) (x : Vec2 ℚ) : Bool :=
  (polygonIds m).all fun id => match ringOf m id with
    | none => false
    | some ps => (!insideCheck m id x || ps.contains x) &&
      ((ringEdges ps).all fun e => !(decide (e.1 = x) || decide (e.2 = x)) || (crossings m).any fun c =>
        validCheck m c && decide (c.src = id) && decide (endsOf m c = some e)) &&
      (polygonIds m).all fun id' => match ringOf m id' with
        | none => false
        | some ps' => decide (id = id') || !(ps.contains x && ps'.contains x) || splitCheck x ps ps'
          || splitCheck x ps' ps

theorem mem_real {ps : List (Vec2 ℚ)} {x : Vec2 ℚ} : x.real ∈ ps.map Vec2.real ↔ x ∈ ps := by
  constructor
  · intro h
    obtain ⟨y, hy, he⟩ := List.mem_map.1 h
    rwa [← Vec2.real_injective he]
  · exact fun h => List.mem_map.2 ⟨x, h, rfl⟩

theorem surrounded_of_check {m : Mesh (Ext ℚ)} {x : Vec2 ℚ} (h : surroundCheck m x = true) :
    Surrounded m.real x.real := by
  unfold surroundCheck at h
  rw [List.all_eq_true] at h
  have ringEq : ∀ id qs, Ring m id qs → id ∈ polygonIds m ∧ ringOf m id = some qs := by
    intro id qs hr
    have hid : id ∈ polygonIds m := by
      obtain ⟨l, p, hp, -⟩ := hr
      exact mem_polygonIds hp
    refine ⟨hid, ?_⟩
    have := h id hid
    cases hq : ringOf m id with
    | none => rw [hq] at this; simp at this
    | some ps => rw [(ringOf_eq hq).unique hr]
  have hk : ∀ id qs, Ring m id qs → (insideCheck m id x = true → x ∈ qs) ∧
      (∀ A B, Consecutive qs A B → A = x ∨ B = x → ∃ c, validCheck m c = true ∧ c.src = id ∧ endsOf m c = some (A, B)) ∧
      ∀ id' qs', Ring m id' qs' → id = id' ∨ ¬ (x ∈ qs ∧ x ∈ qs') ∨ splitCheck x qs qs' = true
        ∨ splitCheck x qs' qs = true := by
    intro id qs hr
    obtain ⟨hid, hq⟩ := ringEq id qs hr
    have h1 := h id hid
    rw [hq] at h1
    simp only [Bool.and_eq_true, List.all_eq_true, Bool.or_eq_true, Bool.not_eq_true', List.any_eq_true,
      decide_eq_true_iff] at h1
    obtain ⟨⟨h2, h3⟩, h4⟩ := h1
    refine ⟨fun hi => ?_, fun A B hAB hx => ?_, fun id' qs' hr' => ?_⟩
    · rcases h2 with h2 | h2
      · rw [h2] at hi; simp at hi
      · simpa using h2
    · rcases h3 (A, B) (mem_ringEdges.2 hAB) with h | ⟨c, -, ⟨hc, h5⟩, h6⟩
      · rcases hx with rfl | rfl <;> simp at h
      · exact ⟨c, hc, h5, h6⟩
    · obtain ⟨hid', hq'⟩ := ringEq id' qs' hr'
      have h5 := h4 id' hid'
      rw [hq'] at h5
      simp only [Bool.or_eq_true, Bool.not_eq_true', decide_eq_true_iff] at h5
      rcases h5 with ((h | h) | h) | h
      · exact .inl h
      · right; left
        rintro ⟨a, b⟩
        rw [Bool.and_eq_false_iff] at h
        simp [a, b] at h
      · exact .inr (.inr (.inl h))
      · exact .inr (.inr (.inr h))
  refine ⟨?_, ?_, ?_⟩
  · intro id ps hr hin
    obtain ⟨qs, hq, rfl⟩ := ring_real.1 hr
    rw [mem_real]
    apply (hk id qs hq).1
    rw [← inPolygon_iff_check (ringEq id qs hq).2]
    refine ⟨qs, hq, fun a b hab => ?_⟩
    have := hin _ _ (consecutive_real.2 ⟨a, b, hab, rfl, rfl⟩)
    rw [tri_real] at this
    exact_mod_cast this
  · intro id ps A B hr hAB hx
    obtain ⟨qs, hq, rfl⟩ := ring_real.1 hr
    obtain ⟨a, b, hab, rfl, rfl⟩ := consecutive_real.1 hAB
    obtain ⟨c, hc, h1, h2⟩ := (hk id qs hq).2.1 a b hab (hx.imp Vec2.real_injective Vec2.real_injective)
    exact ⟨c, valid_real.2 (valid_of_check hc), h1, at_real.2 ⟨a, b, endsOf_eq.1 h2, rfl, rfl⟩⟩
  · intro id id' ps ps' z hr hr' hx hx' hz hz'
    obtain ⟨qs, hq, rfl⟩ := ring_real.1 hr
    obtain ⟨qs', hq', rfl⟩ := ring_real.1 hr'
    rcases (hk id qs hq).2.2 id' qs' hq' with h | h | h | h
    · exact h
    · exact absurd ⟨mem_real.1 hx, mem_real.1 hx'⟩ h
    · exact (split_of_check h hz hz').elim
    · exact (split_of_check h hz' hz).elim

/-- All vertices that are not flagged are surrounded, and neither the start nor the goal is at such a vertex. -/
def cornersCheck (m : Mesh (Ext ℚ)) (start goal : Vec2 ℚ) : Bool :=
  m.layers.all fun l => l.vertices.all fun v => v.isCorner || match toFin (v.coords + l.offset) with
    | some x => surroundCheck m x && decide (x ≠ start) && decide (x ≠ goal)
    | none => true

theorem corners_of_check {m : Mesh (Ext ℚ)} {start goal : Vec2 ℚ} (h : cornersCheck m start goal = true) (w : Vec2 ℝ) :
    Flagged m.real w ∨ (Surrounded m.real w ∧ w ≠ start.real ∧ w ≠ goal.real) := by
  by_cases hf : Flagged m.real w
  · exact .inl hf
  right
  unfold Flagged at hf
  push Not at hf
  obtain ⟨l, hl, v, hv, hw, hno⟩ := hf
  simp only [Mesh.real, List.mem_map] at hl
  obtain ⟨k, hkl, rfl⟩ := hl
  simp only [Layer.real, List.mem_map] at hv
  obtain ⟨u, hu, rfl⟩ := hv
  obtain ⟨y, hy, rfl⟩ := extReal_eq_fin.1 ((extReal_add u.coords k.offset).trans hw)
  unfold cornersCheck at h
  simp only [List.all_eq_true, Bool.or_eq_true] at h
  have := (h k hkl u hu).resolve_left hno
  rw [toFin_eq.2 hy] at this
  simp only [Bool.and_eq_true, decide_eq_true_iff] at this
  exact ⟨surrounded_of_check this.1.1, fun h => this.1.2 (Vec2.real_injective h), fun h => this.2 (Vec2.real_injective h)⟩

end Polyanya
