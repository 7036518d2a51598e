import Verif.Spec.Inflate
import Verif.Proofs.Corridor
import Verif.Spec.RatScalar
import Verif.Props.TriangulationExamples
/-
C51: the grown outline of a ring encloses the outlines of its sides, and nothing else but the listed holes.
-/

namespace Polyanya

variable {K : Type} [Scalar K]

theorem foldlM_cons_ok {α β : Type} {f : β → α → Res β} {x : α} {xs : List α} {b r : β} :
    (x :: xs).foldlM f b = .ok r ↔ ∃ b', f b x = .ok b' ∧ xs.foldlM f b' = .ok r := by
  rw [List.foldlM_cons, bind_eq_ok]

/-- What is known of the outline made of some sides. -/
structure Outlined (lib : TriLib K) (covers : LineString K → Vec2 K → Prop) (d : K) (n : Nat)
    (S : Vec2 K × Vec2 K → Prop) (acc : LineString K × List (LineString K)) : Prop where
  cover : ∀ l, S l → ∀ r, roundLine l d n = .ok r → ∀ z, lib.insideRing r z → lib.insideRing acc.1 z
  within : ∀ z, covers acc.1 z → (∃ l r, S l ∧ roundLine l d n = .ok r ∧ covers r z) ∨ ∃ h ∈ acc.2, covers h z

theorem inflateStep_outlined {lib : TriLib K} {covers : LineString K → Vec2 K → Prop} (hu : lib.Unites covers) {d : K} {n : Nat}
    {S : Vec2 K × Vec2 K → Prop} {acc : LineString K × List (LineString K)} (h : Outlined lib covers d n S acc)
    {line : Vec2 K × Vec2 K} {r : LineString K} (hr : roundLine line d n = .ok r) {z : Vec2 K}
    (hz : lib.insideRing acc.1 z) (hz' : lib.insideRing r z) :
    ∃ acc', inflateStep lib d n acc line = .ok acc' ∧ Outlined lib covers d n (fun l => S l ∨ l = line) acc' := by
  unfold inflateStep
  rw [hr, res_bind_ok]
  cases hun : lib.union (GeoPolygon.new acc.1 []) (GeoPolygon.new r []) with
  | nil => exact absurd hun (hu.some _ _ z hz hz')
  | cons p ps =>
    refine ⟨_, rfl, ⟨?_, ?_⟩⟩
    · rintro l (hl | rfl) r' hr' y hy
      · exact hu.joins _ _ z p ps hz hz' hun y (.inl (h.cover l hl r' hr' y hy))
      · rw [hr] at hr'
        cases hr'
        exact hu.joins _ _ z p ps hz hz' hun y (.inr hy)
    · intro y hy
      rcases hu.upto _ _ z p ps hz hz' hun y hy with hy | hy | ⟨h', hm, hy⟩
      · rcases h.within y hy with ⟨l, r', hl, hr', hc⟩ | ⟨h', hm, hc⟩
        · exact .inl ⟨l, r', .inl hl, hr', hc⟩
        · exact .inr ⟨h', List.mem_append_left _ hm, hc⟩
      · exact .inl ⟨line, r, .inr rfl, hr, hy⟩
      · exact .inr ⟨h', List.mem_append_right _ hm, hy⟩

theorem Outlined.congr {lib : TriLib K} {covers : LineString K → Vec2 K → Prop} {d : K} {n : Nat}
    {S S' : Vec2 K × Vec2 K → Prop} {acc : LineString K × List (LineString K)} (h : Outlined lib covers d n S acc)
    (hS : ∀ l, S l ↔ S' l) : Outlined lib covers d n S' acc :=
  ⟨fun l hl => h.cover l ((hS l).2 hl), fun z hz => (h.within z hz).imp
    (fun ⟨l, r, hl, h2⟩ => ⟨l, r, (hS l).1 hl, h2⟩) (fun h => h)⟩

/-- The sides one after the other. -/
theorem inflate_fold {lib : TriLib K} {covers : LineString K → Vec2 K → Prop} (hu : lib.Unites covers) {d : K} {n : Nat} :
    ∀ (rest : List (Vec2 K)) (b : Vec2 K) (S : Vec2 K × Vec2 K → Prop) (acc : LineString K × List (LineString K)),
      Outlined lib covers d n S acc → lib.insideRing acc.1 b →
      (∀ l ∈ windows2 (b :: rest), ∃ r, roundLine l d n = .ok r ∧ lib.insideRing r l.1 ∧ lib.insideRing r l.2) →
      ∃ acc', (windows2 (b :: rest)).foldlM (inflateStep lib d n) acc = .ok acc' ∧
        Outlined lib covers d n (fun l => S l ∨ l ∈ windows2 (b :: rest)) acc' ∧
        lib.insideRing acc'.1 ((b :: rest).getLast (by simp)) := by
  intro rest
  induction rest with
  | nil =>
    intro b S acc h hb _
    exact ⟨acc, rfl, h.congr (by simp [windows2]), hb⟩
  | cons c rest ih =>
    intro b S acc h hb hl
    have hw : windows2 (b :: c :: rest) = (b, c) :: windows2 (c :: rest) := by simp [windows2]
    rw [hw] at hl
    obtain ⟨r, hr, h1, h2⟩ := hl (b, c) (by simp)
    obtain ⟨acc1, e1, o1⟩ := inflateStep_outlined hu h hr hb h1
    obtain ⟨acc', e2, o2, h3⟩ := ih c _ acc1 o1 (o1.cover (b, c) (.inr rfl) r hr c h2)
      (fun l hl' => hl l (List.mem_cons_of_mem _ hl'))
    refine ⟨acc', ?_, o2.congr ?_, ?_⟩
    · rw [hw]
      exact foldlM_cons_ok.2 ⟨acc1, e1, e2⟩
    · intro l
      rw [hw, List.mem_cons, or_assoc]
    · rw [List.getLast_cons (by simp)]
      exact h3

theorem windows2_last {α : Type} : ∀ (rest : List α) (a b : α),
    (((a, b) :: windows2 (b :: rest)).getLast (by simp)).2 = (b :: rest).getLast (by simp) := by
  intro rest
  induction rest with
  | nil => intro a b; rfl
  | cons c rest ih =>
    intro a b
    have : windows2 (b :: c :: rest) = (b, c) :: windows2 (c :: rest) := by simp [windows2]
    simp only [this]
    rw [List.getLast_cons (l := (b, c) :: windows2 (c :: rest)) (by simp), List.getLast_cons (l := c :: rest) (by simp)]
    exact ih b c

/-- **C51** (rings). A ring of at least two points is grown to an outline that encloses everything inside the rounded outlines of its
sides, the side that closes an open ring included; and what the outline encloses is inside or on the rounded outline of a side,
or inside or on one of the listed holes. -/
theorem C51_ring (lib : TriLib K) (covers : LineString K → Vec2 K → Prop) (hu : lib.Unites covers) (ring : LineString K)
    (hlen : 2 ≤ ring.length) (d : K) (n : Nat) (hr : RoundsSides lib ring d n) :
    ∃ outline holes, inflateOutline lib ring d n = .ok (outline, holes) ∧
      (∀ a b, SideOf ring a b → ∀ r, roundLine (a, b) d n = .ok r → ∀ z, lib.insideRing r z → lib.insideRing outline z) ∧
      (∀ z, covers outline z → (∃ a b r, SideOf ring a b ∧ roundLine (a, b) d n = .ok r ∧ covers r z) ∨
        ∃ h ∈ holes, covers h z) := by
  obtain ⟨a, b, rest, rfl⟩ : ∃ a b rest, ring = a :: b :: rest := by
    match ring, hlen with
    | a :: b :: rest, _ => exact ⟨a, b, rest, rfl⟩
  have hw : windows2 (a :: b :: rest) = (a, b) :: windows2 (b :: rest) := by simp [windows2]
  have hside : ∀ l ∈ windows2 (a :: b :: rest), SideOf (a :: b :: rest) l.1 l.2 := by
    rintro ⟨x, y⟩ hl
    exact .inl (mem_windows2.1 hl)
  obtain ⟨r0, hr0, h1, h2⟩ := hr a b (hside (a, b) (by rw [hw]; simp))
  have o0 : Outlined lib covers d n (fun l => l = (a, b)) (r0, []) := by
    refine ⟨?_, fun z hz => .inl ⟨(a, b), r0, rfl, hr0, hz⟩⟩
    rintro l rfl r hr' z hz
    rw [hr0] at hr'
    cases hr'
    exact hz
  obtain ⟨acc, e1, o1, h3⟩ := inflate_fold hu rest b _ _ o0 h2
    (fun l hl => hr l.1 l.2 (hside l (by rw [hw]; exact List.mem_cons_of_mem _ hl)))
  have o1' : Outlined lib covers d n (fun l => l ∈ windows2 (a :: b :: rest)) acc :=
    o1.congr (fun l => by rw [hw, List.mem_cons])
  have hgl : (windows2 (a :: b :: rest)).getLast? = ((a, b) :: windows2 (b :: rest)).getLast? := by rw [hw]
  unfold inflateOutline
  rw [hw]
  simp only [hr0, e1, res_bind_ok]
  by_cases hcl : LineString.isClosed (a :: b :: rest) = true
  · rw [if_pos hcl]
    refine ⟨acc.1, acc.2, rfl, ?_, ?_⟩
    · rintro x y (hxy | ⟨hc, -⟩) r hr' z hz
      · exact o1'.cover (x, y) (mem_windows2.2 hxy) r hr' z hz
      · rw [hcl] at hc; simp at hc
    · intro z hz
      rcases o1'.within z hz with ⟨l, r, hl, hr', hc⟩ | h
      · exact .inl ⟨l.1, l.2, r, hside l hl, hr', hc⟩
      · exact .inr h
  · rw [if_neg hcl]
    simp only [List.head?_cons]
    have hlast := windows2_last rest a b
    obtain ⟨r1, hr1, h4, h5⟩ := hr ((b :: rest).getLast (by simp)) a
      (.inr ⟨by simpa using hcl, by simp [List.getLast?_eq_some_getLast], rfl⟩)
    obtain ⟨acc', e2, o2⟩ := inflateStep_outlined hu o1' hr1 h3 h4
    rw [hlast, e2]
    refine ⟨acc'.1, acc'.2, rfl, ?_, ?_⟩
    · rintro x y (hxy | ⟨-, hx, hy⟩) r hr' z hz
      · exact o2.cover (x, y) (.inl (mem_windows2.2 hxy)) r hr' z hz
      · refine o2.cover (x, y) (.inr ?_) r hr' z hz
        simp only [List.head?_cons, Option.some.injEq] at hy
        rw [List.getLast?_cons_cons, List.getLast?_eq_some_getLast (by simp), Option.some.injEq] at hx
        rw [hx, hy]
    · intro z hz
      rcases o2.within z hz with ⟨l, r, hl | rfl, hr', hc⟩ | h
      · exact .inl ⟨l.1, l.2, r, hside l hl, hr', hc⟩
      · exact .inl ⟨_, _, r, .inr ⟨by simpa using hcl, by simp [List.getLast?_eq_some_getLast], rfl⟩, hr', hc⟩
      · exact .inr h

/-! ### Example -/

/-- The shadow of a ring on the x axis. -/
def inShadow (r : LineString Rat) (z : Vec2 Rat) : Prop := (∃ p ∈ r, p.x ≤ z.x) ∧ ∃ p ∈ r, z.x ≤ p.x

instance (r : LineString Rat) (z : Vec2 Rat) : Decidable (inShadow r z) := by unfold inShadow; infer_instance

/-- A library that looks only at shadows: the union of rings with common shadow has the union of the shadows. -/
def shadowLib : TriLib Rat :=
  { squareLib with
    contains := fun p z => decide (inShadow p.exterior z)
    union := fun a b => [⟨a.exterior ++ b.exterior, []⟩] }

theorem mem_close {r : LineString Rat} {p : Vec2 Rat} : p ∈ LineString.close r ↔ p ∈ r := by
  unfold LineString.close
  split
  · rfl
  · cases r with
    | nil => simp
    | cons a r => simp; tauto

theorem inShadow_close {r : LineString Rat} {z : Vec2 Rat} : inShadow (LineString.close r) z ↔ inShadow r z := by
  unfold inShadow
  simp only [mem_close]

theorem shadowLib_inside {r : LineString Rat} {z : Vec2 Rat} : shadowLib.insideRing r z ↔ inShadow r z := by
  unfold TriLib.insideRing
  simp only [shadowLib, GeoPolygon.new, decide_eq_true_eq, inShadow_close]

theorem shadowLib_unites : shadowLib.Unites inShadow := by
  refine ⟨fun r r' z _ _ => by simp [shadowLib], ?_, ?_⟩
  · intro r r' z p ps _ _ hp y hy
    simp only [shadowLib, GeoPolygon.new, List.cons.injEq] at hp
    rw [shadowLib_inside, ← hp.1]
    simp only [shadowLib_inside] at hy
    unfold inShadow at hy ⊢
    simp only [List.mem_append, mem_close]
    rcases hy with ⟨⟨p1, h1, h2⟩, p2, h3, h4⟩ | ⟨⟨p1, h1, h2⟩, p2, h3, h4⟩
    · exact ⟨⟨p1, .inl h1, h2⟩, p2, .inl h3, h4⟩
    · exact ⟨⟨p1, .inr h1, h2⟩, p2, .inr h3, h4⟩
  · intro r r' z p ps hz hz' hp y hy
    simp only [shadowLib, GeoPolygon.new, List.cons.injEq] at hp
    rw [← hp.1] at hy
    rw [shadowLib_inside] at hz hz'
    unfold inShadow at hy hz hz' ⊢
    simp only [List.mem_append, mem_close] at hy
    obtain ⟨⟨p1, h1, h2⟩, p2, h3, h4⟩ := hy
    obtain ⟨⟨q1, g1, g2⟩, q2, g3, g4⟩ := hz
    obtain ⟨⟨q1', g1', g2'⟩, q2', g3', g4'⟩ := hz'
    rcases h1 with h1 | h1 <;> rcases h3 with h3 | h3
    · exact .inl ⟨⟨p1, h1, h2⟩, p2, h3, h4⟩
    · by_cases hc : y.x ≤ z.x
      · exact .inl ⟨⟨p1, h1, h2⟩, q2, g3, hc.trans g4⟩
      · exact .inr (.inl ⟨⟨q1', g1', g2'.trans (not_le.1 hc).le⟩, p2, h3, h4⟩)
    · by_cases hc : y.x ≤ z.x
      · exact .inr (.inl ⟨⟨p1, h1, h2⟩, q2', g3', hc.trans g4'⟩)
      · exact .inl ⟨⟨q1, g1, g2.trans (not_le.1 hc).le⟩, p2, h3, h4⟩
    · exact .inr (.inl ⟨⟨p1, h1, h2⟩, p2, h3, h4⟩)

/-- Non-vacuity: the sides of an open square, the closing side included, are rounded. -/
example : shadowLib.Unites inShadow ∧ RoundsSides shadowLib [v2 0 0, v2 1 0, v2 1 1, v2 0 1] (1 / 2) 3 ∧
    SideOf [v2 0 0, v2 1 0, v2 1 1, v2 0 1] (v2 0 1) (v2 0 0) := by
  refine ⟨shadowLib_unites, ?_, .inr ⟨by decide, rfl, rfl⟩⟩
  have hcheck : ∀ l ∈ [(v2 0 0, v2 1 0), (v2 1 0, v2 1 1), (v2 1 1, v2 0 1), (v2 0 1, v2 0 0)],
      resIs (roundLine l (1 / 2) 3) (fun r => decide (inShadow r l.1 ∧ inShadow r l.2)) = true := by decide +kernel
  have hmem : ∀ a b : Vec2 Rat, SideOf [v2 0 0, v2 1 0, v2 1 1, v2 0 1] a b →
      (a, b) ∈ [(v2 0 0, v2 1 0), (v2 1 0, v2 1 1), (v2 1 1, v2 0 1), (v2 0 1, v2 0 0)] := by
    rintro a b (⟨i, h1, h2⟩ | ⟨-, h1, h2⟩)
    · match i, h1, h2 with
      | 0, h1, h2 => simp at h1 h2; simp [h1, h2]
      | 1, h1, h2 => simp at h1 h2; simp [h1, h2]
      | 2, h1, h2 => simp at h1 h2; simp [h1, h2]
      | i + 3, h1, h2 => simp at h2
    · simp at h1 h2; simp [h1, h2]
  intro a b hab
  obtain ⟨r, hr, h⟩ := of_resIs (hcheck (a, b) (hmem a b hab))
  have h := of_decide_eq_true h
  exact ⟨r, hr, shadowLib_inside.2 h.1, shadowLib_inside.2 h.2⟩

end Polyanya
