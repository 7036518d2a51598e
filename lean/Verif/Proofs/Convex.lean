import Verif.Spec.Walk
import Mathlib.Tactic.Linarith
import Mathlib.Tactic.LinearCombination
import Mathlib.Tactic.FieldSimp
import Mathlib.Tactic.Positivity
import Mathlib.Data.List.Rotate
/-
Plane geometry over an ordered field: convex polygons, segments, visibility through an interval.
-/

namespace Polyanya

variable {F : Type} [Field F] [LinearOrder F]

omit [LinearOrder F] in
theorem tri_cyc (a b c : Vec2 F) : tri b c a = tri a b c := by unfold tri; ring

omit [LinearOrder F] in
theorem tri_swap (a b c : Vec2 F) : tri b a c = -tri a b c := by unfold tri; ring

omit [LinearOrder F] in
theorem tri_swap' (a b c : Vec2 F) : tri a c b = -tri a b c := by unfold tri; ring

omit [LinearOrder F] in
@[simp] theorem tri_left (a b : Vec2 F) : tri a b a = 0 := by unfold tri; ring

omit [LinearOrder F] in
@[simp] theorem tri_right (a b : Vec2 F) : tri a b b = 0 := by unfold tri; ring

omit [LinearOrder F] in
@[simp] theorem tri_same (a p : Vec2 F) : tri a a p = 0 := by unfold tri; ring

omit [LinearOrder F] in
theorem tri_along (r a c d : Vec2 F) (u : F) :
    tri r a (along c d u) = (1 - u) * tri r a c + u * tri r a d := by
  simp only [tri, along]; ring

omit [LinearOrder F] in
theorem tri_along₂ (a b p : Vec2 F) (s t : F) :
    tri (along a b s) (along a b t) p = (t - s) * tri a b p := by
  simp only [tri, along]; ring

omit [LinearOrder F] in
theorem tri_diff (r a b s : Vec2 F) : tri r a s - tri r b s = tri a b r - tri a b s := by
  simp only [tri]; ring

omit [LinearOrder F] in
theorem tri_four (r a A p q B : Vec2 F) :
    tri p q B * tri r a A + tri A p B * tri r a q = tri A q B * tri r a p + tri A p q * tri r a B := by
  simp only [tri]; ring

omit [LinearOrder F] in
theorem along_zero (a b : Vec2 F) : along a b 0 = a := by simp [along]

omit [LinearOrder F] in
theorem along_one (a b : Vec2 F) : along a b 1 = b := by cases b; simp [along]

omit [LinearOrder F] in
theorem along_along (a b : Vec2 F) (s t u : F) :
    along (along a b s) (along a b t) u = along a b (s + u * (t - s)) := by
  simp only [along, Vec2.mk.injEq]; constructor <;> ring

omit [LinearOrder F] in
theorem along_self (a : Vec2 F) (u : F) : along a a u = a := by simp [along]

variable [IsStrictOrderedRing F]

theorem Between.left (a b : Vec2 F) : Between a b a := ⟨0, le_rfl, zero_le_one, (along_zero a b).symm⟩

theorem Between.right (a b : Vec2 F) : Between a b b := ⟨1, zero_le_one, le_rfl, (along_one a b).symm⟩

/-- On a straight line, `p`, `y`, `q`, `q'` in this order. -/
theorem Between.trans_left {p y q q' : Vec2 F} (hy : Between p q y) (hq : Between p q' q) :
    Between p q' y ∧ Between y q' q := by
  obtain ⟨w, w0, w1, rfl⟩ := hy
  obtain ⟨u, u0, u1, rfl⟩ := hq
  have e1 : along p (along p q' u) w = along p q' (w * u) := by
    simp only [along, Vec2.mk.injEq]; constructor <;> ring
  rw [e1]
  have hwu : w * u ≤ u := mul_le_of_le_one_left u0 w1
  refine ⟨⟨w * u, mul_nonneg w0 u0, hwu.trans u1, rfl⟩, ?_⟩
  by_cases h : w * u = 1
  · have hu : u = 1 := le_antisymm u1 (h ▸ hwu)
    refine ⟨0, le_rfl, zero_le_one, ?_⟩
    rw [along_zero, h, hu]
  · have hlt : 0 < 1 - w * u := by
      have := lt_of_le_of_ne (hwu.trans u1) h
      linarith
    refine ⟨(u - w * u) / (1 - w * u), div_nonneg (by linarith) hlt.le,
      (div_le_one hlt).2 (by linarith), ?_⟩
    have hne := hlt.ne'
    have hv := div_mul_cancel₀ (u - w * u) hne
    generalize (u - w * u) / (1 - w * u) = v at hv
    simp only [along, Vec2.mk.injEq]
    constructor
    · linear_combination -(q'.x - p.x) * hv
    · linear_combination -(q'.y - p.y) * hv

/-- A point of the segment from `a` to `b` on the segment from `r` to `g`. -/
theorem meet {r a b g : Vec2 F} (hr : 0 ≤ tri a b r) (hg : tri a b g ≤ 0) (hne : tri a b r ≠ tri a b g)
    (hc : 0 ≤ tri r a g) (hd : tri r b g ≤ 0) : ∃ x, Between a b x ∧ Between r g x := by
  have hdiff := tri_diff r a b g
  have hpos : 0 < tri a b r - tri a b g := lt_of_le_of_ne (by linarith) (fun h => hne (by linarith))
  refine ⟨along r g (tri a b r / (tri a b r - tri a b g)),
    ⟨tri r a g / (tri a b r - tri a b g), div_nonneg hc hpos.le,
      (div_le_one hpos).2 (by linarith), ?_⟩,
    ⟨_, div_nonneg hr hpos.le, (div_le_one hpos).2 (by linarith), rfl⟩⟩
  have h1 := div_mul_cancel₀ (tri a b r) hpos.ne'
  have h2 := div_mul_cancel₀ (tri r a g) hpos.ne'
  have hk := mul_inv_cancel₀ hpos.ne'
  rw [div_eq_mul_inv, div_eq_mul_inv]
  generalize (tri a b r - tri a b g)⁻¹ = k at hk
  simp only [tri] at hk ⊢
  simp only [along, Vec2.mk.injEq]
  constructor
  · linear_combination (a.x - r.x) * hk
  · linear_combination (a.y - r.y) * hk

/-! ### Convex rings -/

omit [IsStrictOrderedRing F] in
theorem StrictlyConvex.rotate_one {x : Vec2 F} {l : List (Vec2 F)} (h : StrictlyConvex (x :: l)) :
    StrictlyConvex (l ++ [x]) := by
  refine ⟨by simpa using h.1, ?_⟩
  intro i j k a b c hij hjk ha hb hc
  have hk : k < l.length + 1 := by
    obtain ⟨hk, -⟩ := List.getElem?_eq_some_iff.1 hc
    simpa using hk
  rw [List.getElem?_append_left (by omega)] at ha hb
  by_cases hkl : k < l.length
  · rw [List.getElem?_append_left hkl] at hc
    exact h.2 (i + 1) (j + 1) (k + 1) a b c (by omega) (by omega) (by simpa using ha) (by simpa using hb)
      (by simpa using hc)
  · have hk' : k = l.length := by omega
    subst hk'
    rw [List.getElem?_append_right (le_refl _)] at hc
    simp only [Nat.sub_self, List.getElem?_cons_zero, Option.some.injEq] at hc
    subst hc
    rw [tri_cyc]
    exact h.2 0 (i + 1) (j + 1) x a b (by omega) (by omega) (by simp) (by simpa using ha)
      (by simpa using hb)

omit [IsStrictOrderedRing F] in
theorem StrictlyConvex.rotate {ps : List (Vec2 F)} (h : StrictlyConvex ps) (n : Nat) :
    StrictlyConvex (ps.rotate n) := by
  induction n with
  | zero => simpa using h
  | succ n ih =>
    rw [← List.rotate_rotate ps n 1]
    generalize ps.rotate n = qs at ih
    cases qs with
    | nil => simpa using ih
    | cons x l => simpa using ih.rotate_one

omit [LinearOrder F] [IsStrictOrderedRing F] in
theorem Consecutive.of_rotate {ps : List (Vec2 F)} {a b : Vec2 F} {n : Nat}
    (h : Consecutive (ps.rotate n) a b) : Consecutive ps a b := by
  obtain ⟨i, hi, ha, hb⟩ := h
  rw [List.length_rotate] at hi hb
  have hpos : 0 < ps.length := by omega
  rw [List.getElem?_rotate hi] at ha
  rw [List.getElem?_rotate (Nat.mod_lt _ hpos)] at hb
  refine ⟨(i + n) % ps.length, Nat.mod_lt _ hpos, ha, ?_⟩
  rw [← hb]
  congr 1
  rw [Nat.mod_add_mod, Nat.mod_add_mod]
  congr 1
  omega

omit [LinearOrder F] [IsStrictOrderedRing F] in
theorem consecutive_rotate {ps : List (Vec2 F)} {a b : Vec2 F} (n : Nat) :
    Consecutive (ps.rotate n) a b ↔ Consecutive ps a b := by
  refine ⟨Consecutive.of_rotate, fun h => ?_⟩
  apply Consecutive.of_rotate (n := ps.length * n - n)
  rw [List.rotate_rotate]
  have : n + (ps.length * n - n) = ps.length * n := by
    have : 0 < ps.length := by obtain ⟨i, hi, -⟩ := h; omega
    have : n ≤ ps.length * n := Nat.le_mul_of_pos_left n this
    omega
  rw [this, List.rotate_length_mul]
  exact h

omit [IsStrictOrderedRing F] in
theorem inside_rotate {ps : List (Vec2 F)} {x : Vec2 F} (n : Nat) :
    Inside (ps.rotate n) x ↔ Inside ps x := by
  simp only [Inside, consecutive_rotate]

theorem Inside.between {ps : List (Vec2 F)} {x y z : Vec2 F} (hx : Inside ps x) (hy : Inside ps y)
    (hz : Between x y z) : Inside ps z := by
  obtain ⟨u, u0, u1, rfl⟩ := hz
  intro a b hab
  rw [tri_along]
  have h1 := hx a b hab
  have h2 := hy a b hab
  have : 0 ≤ (1 - u) * tri a b x := mul_nonneg (by linarith) h1
  have : 0 ≤ u * tri a b y := mul_nonneg u0 h2
  linarith

/-- A strictly convex ring, listed from `A` to `B`. -/
structure Fan (ws : List (Vec2 F)) (A B : Vec2 F) : Prop where
  convex : StrictlyConvex ws
  first : ws[0]? = some A
  last : ws[ws.length - 1]? = some B

namespace Fan

variable {ws : List (Vec2 F)} {A B : Vec2 F}

omit [IsStrictOrderedRing F] in
theorem len (h : Fan ws A B) : 3 ≤ ws.length := h.convex.1

omit [IsStrictOrderedRing F] in
theorem consecutive (h : Fan ws A B) : Consecutive ws B A := by
  have := h.len
  refine ⟨ws.length - 1, by omega, h.last, ?_⟩
  have : ws.length - 1 + 1 = ws.length := by omega
  rw [this, Nat.mod_self]
  exact h.first

theorem inner_neg (h : Fan ws A B) {k : Nat} {v : Vec2 F} (hv : ws[k]? = some v) (h0 : 0 < k)
    (h1 : k < ws.length - 1) : tri A B v < 0 := by
  have := h.convex.2 0 k (ws.length - 1) A v B h0 h1 h.first hv h.last
  rw [tri_swap']
  linarith

theorem inside (h : Fan ws A B) {k : Nat} {v : Vec2 F} (hv : ws[k]? = some v) : Inside ws v := by
  have hlen := h.len
  have hk : k < ws.length := (List.getElem?_eq_some_iff.1 hv).1
  rintro a b ⟨i, hi, ha, hb⟩
  by_cases hlast : i + 1 < ws.length
  · rw [Nat.mod_eq_of_lt hlast] at hb
    rcases lt_trichotomy k i with h1 | h1 | h1
    · rw [tri_cyc]
      exact (h.convex.2 k i (i + 1) v a b h1 (by omega) hv ha hb).le
    · subst h1
      rw [ha] at hv
      cases hv
      simp
    · by_cases h2 : k = i + 1
      · subst h2
        rw [hb] at hv
        cases hv
        simp
      · exact (h.convex.2 i (i + 1) k a b v (by omega) (by omega) ha hb hv).le
  · have hi' : i + 1 = ws.length := by omega
    rw [hi', Nat.mod_self, h.first] at hb
    have hi'' : i = ws.length - 1 := by omega
    rw [hi'', h.last] at ha
    cases ha
    cases hb
    by_cases h0 : k = 0
    · subst h0; rw [h.first] at hv; cases hv; simp
    by_cases h1 : k = ws.length - 1
    · subst h1; rw [h.last] at hv; cases hv; simp
    have := h.inner_neg hv (by omega) (by omega)
    rw [tri_swap]
    linarith

theorem inside_base (h : Fan ws A B) {x : Vec2 F} (hx : Between A B x) : Inside ws x :=
  (h.inside h.first).between (h.inside h.last) hx

omit [IsStrictOrderedRing F] in
theorem base_nonpos [IsStrictOrderedRing F] (h : Fan ws A B) {g : Vec2 F} (hg : Inside ws g) : tri A B g ≤ 0 := by
  have := hg B A h.consecutive
  rw [tri_swap] at this
  linarith

/-- Once to the left of a line through the base, the vertices stay to the left. -/
theorem keep (h : Fan ws A B) {r a : Vec2 F} (hA : tri r a A ≤ 0) (hB : 0 ≤ tri r a B) {i j : Nat}
    {p q : Vec2 F} (hp : ws[i]? = some p) (hq : ws[j]? = some q) (hi : 1 ≤ i) (hij : i ≤ j)
    (hp0 : 0 ≤ tri r a p) : 0 ≤ tri r a q := by
  have hlen := h.len
  have hj : j < ws.length := (List.getElem?_eq_some_iff.1 hq).1
  by_cases he : i = j
  · subst he; rw [hp] at hq; cases hq; exact hp0
  by_cases hl : j = ws.length - 1
  · subst hl; rw [h.last] at hq; cases hq; exact hB
  by_contra hneg
  push Not at hneg
  have e := tri_four r a A p q B
  have h1 := h.convex.2 i j (ws.length - 1) p q B (by omega) (by omega) hp hq h.last
  have h2 := h.convex.2 0 i (ws.length - 1) A p B (by omega) (by omega) h.first hp h.last
  have h3 := h.convex.2 0 j (ws.length - 1) A q B (by omega) (by omega) h.first hq h.last
  have h4 := h.convex.2 0 i j A p q (by omega) (by omega) h.first hp hq
  have g1 := mul_nonpos_of_nonneg_of_nonpos h1.le hA
  have g2 := mul_neg_of_pos_of_neg h2 hneg
  have g3 := mul_nonneg h3.le hp0
  have g4 := mul_nonneg h4.le hB
  linarith

/-- The points of the polygon on the line of the base are on the base. -/
theorem on_base (h : Fan ws A B) {g : Vec2 F} (hg : Inside ws g) (h0 : tri A B g = 0) :
    Between A B g := by
  have hlen := h.len
  obtain ⟨C, hC⟩ : ∃ C, ws[1]? = some C := ⟨_, List.getElem?_eq_getElem (by omega)⟩
  obtain ⟨D, hD⟩ : ∃ D, ws[ws.length - 2]? = some D := ⟨_, List.getElem?_eq_getElem (by omega)⟩
  have c1 : Consecutive ws A C := by
    refine ⟨0, by omega, h.first, ?_⟩
    rw [Nat.mod_eq_of_lt (by omega)]; exact hC
  have c2 : Consecutive ws D B := by
    refine ⟨ws.length - 2, by omega, hD, ?_⟩
    have : ws.length - 2 + 1 = ws.length - 1 := by omega
    rw [this, Nat.mod_eq_of_lt (by omega)]; exact h.last
  have p1 := h.convex.2 0 1 (ws.length - 1) A C B (by omega) (by omega) h.first hC h.last
  have p2 := h.convex.2 0 (ws.length - 2) (ws.length - 1) A D B (by omega) (by omega) h.first hD h.last
  have g1 := hg A C c1
  have g2 := hg D B c2
  -- g = A + u (B - A) with u = tri A C g / tri A C B
  refine ⟨tri A C g / tri A C B, div_nonneg g1 p1.le, ?_, ?_⟩
  · rw [div_le_one p1]
    by_contra hc
    push Not at hc
    -- tri D B g * tri A C B = tri A D B * (tri A C B - tri A C g)
    have e : tri D B g * tri A C B - tri A D B * (tri A C B - tri A C g)
        = tri A B g * (tri A C B - tri A C D) := by
      simp only [tri]; ring
    rw [h0, zero_mul] at e
    have := mul_nonneg g2 p1.le
    have := mul_neg_of_pos_of_neg p2 (show tri A C B - tri A C g < 0 by linarith)
    linarith
  · have hk := div_mul_cancel₀ (tri A C g) p1.ne'
    generalize tri A C g / tri A C B = k at hk
    have hx : (A.x + k * (B.x - A.x) - g.x) * tri A C B = (B.x - A.x) * (k * tri A C B - tri A C g)
        + (C.x - A.x) * tri A B g := by simp only [tri]; ring
    have hy : (A.y + k * (B.y - A.y) - g.y) * tri A C B = (B.y - A.y) * (k * tri A C B - tri A C g)
        + (C.y - A.y) * tri A B g := by simp only [tri]; ring
    rw [h0, hk] at hx hy
    simp only [sub_self, mul_zero, add_zero] at hx hy
    have ex := (mul_eq_zero.1 hx).resolve_right p1.ne'
    have ey := (mul_eq_zero.1 hy).resolve_right p1.ne'
    cases g
    simp only [along, Vec2.mk.injEq]
    constructor <;> linarith

/-- The line of another edge meets no vertex but the ends of the edge. -/
theorem edge_line (h : Fan ws A B) {k i : Nat} {C D v : Vec2 F} (hC : ws[k]? = some C)
    (hD : ws[k + 1]? = some D) (hv : ws[i]? = some v) (h0 : tri C D v = 0) : i = k ∨ i = k + 1 := by
  by_contra hc
  push Not at hc
  rcases lt_trichotomy i k with h1 | h1 | h1
  · have := h.convex.2 i k (k + 1) v C D h1 (by omega) hv hC hD
    rw [← tri_cyc] at this
    exact this.ne' h0
  · exact hc.1 h1
  · have := h.convex.2 k (k + 1) i C D v (by omega) (by omega) hC hD hv
    exact this.ne' h0

/-- Inner points of another edge are strictly beyond the base. -/
theorem edge_inner (h : Fan ws A B) {k : Nat} {C D : Vec2 F} (hC : ws[k]? = some C)
    (hD : ws[k + 1]? = some D) {u : F} (u0 : 0 < u) (u1 : u < 1) : tri A B (along C D u) < 0 := by
  have hlen := h.len
  have hk : k + 1 < ws.length := (List.getElem?_eq_some_iff.1 hD).1
  rw [tri_along]
  have hC0 := h.base_nonpos (h.inside hC)
  have hD0 := h.base_nonpos (h.inside hD)
  by_cases hk0 : k = 0
  · have := h.inner_neg hD (by omega) (by omega)
    have := mul_neg_of_pos_of_neg u0 this
    have := mul_nonpos_of_nonneg_of_nonpos (show 0 ≤ 1 - u by linarith) hC0
    linarith
  · have := h.inner_neg hC (by omega) (by omega)
    have := mul_neg_of_pos_of_neg (show 0 < 1 - u by linarith) this
    have := mul_nonpos_of_nonneg_of_nonpos u0.le hD0
    linarith

end Fan

omit [IsStrictOrderedRing F] in
/-- A strictly convex ring with edge `B A`, listed from `A` to `B`. -/
theorem fan_of_consecutive {ps : List (Vec2 F)} {A B : Vec2 F} (hps : StrictlyConvex ps) {i : Nat}
    (hi : i < ps.length) (hB : ps[i]? = some B) (hA : ps[(i + 1) % ps.length]? = some A) :
    Fan (ps.rotate (i + 1)) A B := by
  have hlen := hps.1
  refine ⟨hps.rotate _, ?_, ?_⟩
  · rw [List.getElem?_rotate (by omega)]
    simpa using hA
  · rw [List.length_rotate, List.getElem?_rotate (by omega)]
    have : (ps.length - 1 + (i + 1)) % ps.length = i := by
      have : ps.length - 1 + (i + 1) = i + ps.length := by omega
      rw [this, Nat.add_mod_right, Nat.mod_eq_of_lt hi]
    rw [this]; exact hB

end Polyanya
