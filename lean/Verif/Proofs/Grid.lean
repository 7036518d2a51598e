import Verif.Proofs.Straight
/-
Meshes on a grid have no near misses.
-/

namespace Polyanya

variable {F : Type} [Field F] [LinearOrder F]

/-- `v` is a point of the `N × N` grid with origin `o` and step `u`. -/
def OnGrid (o : Vec2 F) (u : F) (N : Nat) (v : Vec2 F) : Prop :=
  ∃ i j : Nat, i ≤ N ∧ j ≤ N ∧ v = ⟨o.x + u * i, o.y + u * j⟩

variable [IsStrictOrderedRing F]

/-- The signed area of three grid points is a bounded multiple of the area of a cell. -/
theorem OnGrid.tri_diff_int {o : Vec2 F} {u : F} {N : Nat} {r w A B : Vec2 F} (hr : OnGrid o u N r)
    (hw : OnGrid o u N w) (hA : OnGrid o u N A) (hB : OnGrid o u N B) :
    ∃ q : ℤ, |q| ≤ 2 * N ^ 2 ∧ tri r w A - tri r w B = u ^ 2 * q := by
  obtain ⟨ri, rj, hri, hrj, rfl⟩ := hr
  obtain ⟨wi, wj, hwi, hwj, rfl⟩ := hw
  obtain ⟨ai, aj, hai, haj, rfl⟩ := hA
  obtain ⟨bi, bj, hbi, hbj, rfl⟩ := hB
  refine ⟨(wi - ri) * (aj - bj) - (wj - rj) * (ai - bi), ?_, ?_⟩
  · have b1 : |((wi : ℤ) - ri) * (aj - bj)| ≤ N * N := by
      rw [abs_mul]
      exact mul_le_mul (abs_le.2 ⟨by omega, by omega⟩) (abs_le.2 ⟨by omega, by omega⟩) (abs_nonneg _)
        (by positivity)
    have b2 : |((wj : ℤ) - rj) * (ai - bi)| ≤ N * N := by
      rw [abs_mul]
      exact mul_le_mul (abs_le.2 ⟨by omega, by omega⟩) (abs_le.2 ⟨by omega, by omega⟩) (abs_nonneg _)
        (by positivity)
    have := abs_sub (((wi : ℤ) - ri) * (aj - bj)) (((wj : ℤ) - rj) * (ai - bi))
    linarith
  · simp only [tri]
    push_cast
    ring

theorem OnGrid.tri_int {o : Vec2 F} {u : F} {N : Nat} {r w A : Vec2 F} (hr : OnGrid o u N r)
    (hw : OnGrid o u N w) (hA : OnGrid o u N A) : ∃ q : ℤ, tri r w A = u ^ 2 * q := by
  obtain ⟨q, -, hq⟩ := hr.tri_diff_int hw hA hr
  exact ⟨q, by rw [← hq]; simp⟩

/-- A fraction that is not zero is not small. -/
theorem fraction_gap {x : F} {p q : ℤ} {M : F} (h : x * q = p) (hx : x ≠ 0) (hq : q ≠ 0)
    (hM : (|q| : ℤ) ≤ M) : 1 ≤ |x| * M := by
  have hq' : (q : F) ≠ 0 := by exact_mod_cast hq
  have hp : p ≠ 0 := by
    rintro rfl
    rw [Int.cast_zero] at h
    rcases mul_eq_zero.1 h with h | h
    · exact hx h
    · exact hq' h
  have h1 : (1 : F) ≤ |(p : F)| := by
    rw [← Int.cast_abs]
    exact_mod_cast Int.one_le_abs hp
  rw [← h, abs_mul] at h1
  have h2 : |(q : F)| ≤ M := by rw [← Int.cast_abs]; exact hM
  exact h1.trans (mul_le_mul_of_nonneg_left h2 (abs_nonneg _))

variable [Scalar F]

/-- A point on a sight line of a mesh on a grid. -/
theorem Sight.grid {m : Mesh (Ext F)} {o : Vec2 F} {u : F} {N : Nat} {start r A B x : Vec2 F}
    (hN : 1 ≤ N) (hu : 0 < u)
    (hv : ∀ v, Eye m start v → OnGrid o u N v) (hr : Eye m start r) (h : Sight m start r A B x) :
    ∃ (w : Vec2 F) (κ τ : F) (p q : ℤ), Eye m start w ∧ x = along r w κ ∧ x = along A B τ ∧ q ≠ 0
      ∧ |q| ≤ 2 * N ^ 2 ∧ τ * q = p := by
  obtain ⟨hE, hx⟩ := h
  have hA : Eye m start A := .inr (hE.isVertex A (.inl rfl))
  have hB : Eye m start B := .inr (hE.isVertex B (.inr rfl))
  have h1 : |(1 : ℤ)| ≤ 2 * N ^ 2 := by
    rw [abs_one]
    have : (1 : ℤ) ≤ N := by exact_mod_cast hN
    nlinarith
  rcases hx with rfl | rfl | ⟨w, hw, hne, h0, hline⟩
  · exact ⟨x, 1, 0, 0, 1, hA, (along_one _ _).symm, (along_zero _ _).symm, by simp, h1, by simp⟩
  · exact ⟨x, 1, 1, 1, 1, hB, (along_one _ _).symm, (along_one _ _).symm, by simp, h1, by simp⟩
  · have hrw : r ≠ w := by rintro rfl; simp at hne
    have hAB : A ≠ B := by rintro rfl; exact hne rfl
    obtain ⟨κ, hκ⟩ := on_line hrw h0
    obtain ⟨τ, hτ⟩ := on_line hAB hline
    obtain ⟨q, hq, hqe⟩ := (hv r hr).tri_diff_int (hv w hw) (hv A hA) (hv B hB)
    obtain ⟨p, hp⟩ := (hv r hr).tri_int (hv w hw) (hv A hA)
    have hu2 : u ^ 2 ≠ 0 := pow_ne_zero 2 hu.ne'
    refine ⟨w, κ, τ, p, q, hw, hκ, hτ, ?_, hq, ?_⟩
    · rintro rfl
      apply hne
      rw [Int.cast_zero, mul_zero] at hqe
      exact sub_eq_zero.1 hqe
    · rw [hτ, tri_along] at h0
      apply mul_left_cancel₀ hu2
      rw [← hp]
      linear_combination -h0 - τ * hqe

/-- A mesh on a grid has no near misses, if the cells are not too small. -/
theorem noNearMiss_of_grid {m : Mesh (Ext F)} {start goal o : Vec2 F} {u : F} {N : Nat} (hN : 1 ≤ N)
    (hN' : N ≤ 70) (hu : (N : F) ^ 2 / 50 ≤ u) (hu' : 1 / 25 ≤ u)
    (hv : ∀ v, IsVertex m v → OnGrid o u N v) (hs : OnGrid o u N start) (hg : OnGrid o u N goal) :
    NoNearMiss m start goal := by
  have hu0 : 0 < u := lt_of_lt_of_le (by norm_num) hu'
  have heye : ∀ v, Eye m start v → OnGrid o u N v := by
    rintro v (rfl | h)
    · exact hs
    · exact hv v h
  have N1 : (1 : F) ≤ N := by exact_mod_cast hN
  have N70 : (N : F) ≤ 70 := by exact_mod_cast hN'
  have N2 : (1 : F) ≤ (N : F) ^ 2 := by nlinarith
  have N2' : (N : F) ^ 2 ≤ 4900 := by nlinarith
  have hcast : ∀ q : ℤ, |q| ≤ 2 * N ^ 2 → ((|q| : ℤ) : F) ≤ 2 * (N : F) ^ 2 := by
    intro q hq
    exact_mod_cast hq
  have small : ∀ x k M : F, 1 ≤ |x| * M → 0 < M → |x| < k → 1 < k * M := fun x k M h1 h2 h3 =>
    h1.trans_lt (mul_lt_mul_of_pos_right h3 h2)
  refine { sides := ?_, hits := ?_, ends := ?_, apart := ?_, flat := ?_ }
  · intro r A B x v hr hx hvv hlt
    obtain ⟨w, κ, τ, p, q, -, -, hτ, hq0, hq, hpq⟩ := hx.grid hN hu0 heye hr
    have hA := heye A (.inr (hx.1.isVertex A (.inl rfl)))
    have hB := heye B (.inr (hx.1.isVertex B (.inr rfl)))
    have hV : OnGrid o u N v := by rcases hvv with h | rfl; exacts [hv v h, hg]
    obtain ⟨k1, hk1⟩ := (heye r hr).tri_int hA hV
    obtain ⟨k2, hk2⟩ := (heye r hr).tri_int hB hV
    by_contra hne
    have hu2 : u ^ 2 ≠ 0 := pow_ne_zero 2 hu0.ne'
    have e : tri r x v = (1 - τ) * tri r A v + τ * tri r B v := by
      rw [hτ]; simp only [tri, along]; ring
    have h1 : tri r x v / u ^ 2 * q = ((q - p) * k1 + p * k2 : ℤ) := by
      rw [e, hk1, hk2]
      push_cast
      rw [← hpq]
      field_simp
    have h2 := fraction_gap h1 (div_ne_zero hne hu2) hq0 (hcast q hq)
    rw [abs_div, abs_of_pos (pow_pos hu0 2)] at h2
    have h3 : u ^ 2 ≤ |tri r x v| * (2 * (N : F) ^ 2) := by
      rw [div_mul_eq_mul_div, le_div_iff₀ (pow_pos hu0 2), one_mul] at h2
      exact h2
    have h4 : |tri r x v| * (2 * (N : F) ^ 2) ≤ 1 / 10000 * (2 * (N : F) ^ 2) :=
      mul_le_mul_of_nonneg_right hlt.le (by positivity)
    nlinarith
  · intro r A B x C D t hr hx hCD hne ht hlo hhi
    obtain ⟨w, κ, τ, p, q, hw, hκ, -, -, -, -⟩ := hx.grid hN hu0 heye hr
    have hC := heye C (.inr (hCD.isVertex C (.inl rfl)))
    have hD := heye D (.inr (hCD.isVertex D (.inr rfl)))
    have hk : ∀ X, tri r x X = κ * tri r w X := by
      intro X; rw [hκ]; simp only [tri, along]; ring
    rw [hk, hk] at ht hne
    have hκ0 : κ ≠ 0 := by rintro rfl; simp at hne
    obtain ⟨Q, hQ, hQe⟩ := (heye r hr).tri_diff_int (heye w hw) hC hD
    obtain ⟨P, hP⟩ := (heye r hr).tri_int (heye w hw) hC
    have hu2 : u ^ 2 ≠ 0 := pow_ne_zero 2 hu0.ne'
    have hQ0 : Q ≠ 0 := by
      rintro rfl
      rw [Int.cast_zero, mul_zero, sub_eq_zero] at hQe
      rw [hQe] at hne
      exact hne rfl
    have htQ : t * Q = P := by
      apply mul_left_cancel₀ hu2
      apply mul_left_cancel₀ hκ0
      rw [← hP]
      linear_combination ht - κ * t * hQe
    constructor
    · by_contra hneg
      push Not at hneg
      have h2 := fraction_gap htQ hneg.ne hQ0 (hcast Q hQ)
      rw [abs_of_neg hneg] at h2
      nlinarith
    · by_contra hgt
      push Not at hgt
      have h1 : (t - 1) * Q = ((P - Q : ℤ) : F) := by push_cast; rw [← htQ]; ring
      have h2 := fraction_gap h1 (by linarith : (0 : F) < t - 1).ne' hQ0 (hcast Q hQ)
      rw [abs_of_pos (by linarith : (0 : F) < t - 1)] at h2
      nlinarith
  · intro r A B x v hr hx hvv hle
    obtain ⟨w, κ, τ, p, q, -, -, hτ, hq0, hq, hpq⟩ := hx.grid hN hu0 heye hr
    have hA := heye A (.inr (hx.1.isVertex A (.inl rfl)))
    have hB := heye B (.inr (hx.1.isVertex B (.inr rfl)))
    by_contra hne
    -- the squared length of the edge
    have hlen : A ≠ B → u ^ 2 ≤ (B.x - A.x) * (B.x - A.x) + (B.y - A.y) * (B.y - A.y) := by
      intro hAB
      have h0 := sq_ne_zero hAB
      obtain ⟨ai, aj, -, -, rfl⟩ := hA
      obtain ⟨bi, bj, -, -, rfl⟩ := hB
      have e : (o.x + u * bi - (o.x + u * ai)) * (o.x + u * bi - (o.x + u * ai))
          + (o.y + u * bj - (o.y + u * aj)) * (o.y + u * bj - (o.y + u * aj))
          = u ^ 2 * ((((bi : ℤ) - ai) ^ 2 + ((bj : ℤ) - aj) ^ 2 : ℤ) : F) := by push_cast; ring
      simp only at h0 ⊢
      rw [e] at h0 ⊢
      have hz : (((bi : ℤ) - ai) ^ 2 + ((bj : ℤ) - aj) ^ 2 : ℤ) ≠ 0 := by
        intro hz; rw [hz] at h0; simp at h0
      have hpos : (1 : ℤ) ≤ ((bi : ℤ) - ai) ^ 2 + ((bj : ℤ) - aj) ^ 2 := by
        have := sq_nonneg ((bi : ℤ) - ai)
        have := sq_nonneg ((bj : ℤ) - aj)
        omega
      have : (1 : F) ≤ ((((bi : ℤ) - ai) ^ 2 + ((bj : ℤ) - aj) ^ 2 : ℤ) : F) := by exact_mod_cast hpos
      have := mul_le_mul_of_nonneg_left this (pow_pos hu0 2).le
      linarith
    have key : ∀ σ : F, ∀ P : ℤ, σ * q = P → σ ≠ 0 → A ≠ B →
        sqDist x v = σ * σ * ((B.x - A.x) * (B.x - A.x) + (B.y - A.y) * (B.y - A.y)) → False := by
      intro σ P hσ hσ0 hAB hd
      have h2 := fraction_gap hσ hσ0 hq0 (hcast q hq)
      have h3 := mul_le_mul_of_nonneg_left (hlen hAB) (mul_self_nonneg σ)
      rw [← hd] at h3
      have h4 : 1 ≤ σ * σ * (2 * (N : F) ^ 2) ^ 2 := by
        have := mul_le_mul h2 h2 zero_le_one (by linarith)
        have e : |σ| * (2 * (N : F) ^ 2) * (|σ| * (2 * (N : F) ^ 2)) = |σ| * |σ| * (2 * (N : F) ^ 2) ^ 2 := by
          ring
        rw [e, abs_mul_abs_self] at this
        linarith
      have h5 : u ^ 2 ≤ 1 / 1000000 * (2 * (N : F) ^ 2) ^ 2 := by
        have h6 : σ * σ * u ^ 2 ≤ 1 / 1000000 := h3.trans hle
        have h7 := mul_le_mul_of_nonneg_right h6 (sq_nonneg (2 * (N : F) ^ 2))
        have h8 := mul_le_mul_of_nonneg_right h4 (sq_nonneg u)
        nlinarith
      have h6 : ((N : F) ^ 2 / 50) ^ 2 ≤ u ^ 2 := pow_le_pow_left₀ (by positivity) hu 2
      nlinarith
    have hAB : A ≠ B := by
      rintro rfl
      apply hne
      rw [hτ, along_self]
      rcases hvv with rfl | rfl <;> rfl
    rcases hvv with rfl | rfl
    · refine key τ p hpq ?_ hAB ?_
      · rintro rfl; exact hne (by rw [hτ, along_zero])
      · rw [hτ]; simp only [sqDist, along]; ring
    · refine key (1 - τ) (q - p) (by push_cast; rw [← hpq]; ring) ?_ hAB ?_
      · intro h
        have : τ = 1 := by linarith
        exact hne (by rw [hτ, this, along_one])
      · rw [hτ]; simp only [sqDist, along]; ring
  · intro v w hV hW hlt
    obtain ⟨ai, aj, -, -, rfl⟩ := hv v hV
    obtain ⟨bi, bj, -, -, rfl⟩ := hv w hW
    have e : sqDist (⟨o.x + u * ai, o.y + u * aj⟩ : Vec2 F) ⟨o.x + u * bi, o.y + u * bj⟩
        = u ^ 2 * ((((bi : ℤ) - ai) ^ 2 + ((bj : ℤ) - aj) ^ 2 : ℤ) : F) := by
      simp only [sqDist]; push_cast; ring
    rw [e] at hlt
    have hz : ((bi : ℤ) - ai) ^ 2 + ((bj : ℤ) - aj) ^ 2 < 1 := by
      by_contra hc
      push Not at hc
      have h1 : (1 : F) ≤ ((((bi : ℤ) - ai) ^ 2 + ((bj : ℤ) - aj) ^ 2 : ℤ) : F) := by exact_mod_cast hc
      have h2 := mul_le_mul_of_nonneg_left h1 (pow_pos hu0 2).le
      have h3 : (1 / 25 : F) ^ 2 ≤ u ^ 2 := pow_le_pow_left₀ (by norm_num) hu' 2
      norm_num at h3
      linarith
    have hx0 := sq_nonneg ((bi : ℤ) - ai)
    have hy0 := sq_nonneg ((bj : ℤ) - aj)
    have hx : ((bi : ℤ) - ai) = 0 := by
      apply pow_eq_zero_iff (n := 2) (by norm_num) |>.1
      omega
    have hy : ((bj : ℤ) - aj) = 0 := by
      apply pow_eq_zero_iff (n := 2) (by norm_num) |>.1
      omega
    have : bi = ai := by omega
    have : bj = aj := by omega
    subst bi bj
    rfl
  · intro r A B x y z hr hx hy hz hlt
    obtain ⟨-, -, τ, p, q, -, -, hτ, hq0, hq, hpq⟩ := hx.grid hN hu0 heye hr
    obtain ⟨-, -, σ, p', q', -, -, hσ, hq0', hq', hpq'⟩ := hy.grid hN hu0 heye hr
    have hA := heye A (.inr (hx.1.isVertex A (.inl rfl)))
    have hB := heye B (.inr (hx.1.isVertex B (.inr rfl)))
    have hZ : OnGrid o u N z := by rcases hz with rfl | rfl; exacts [heye z hr, hg]
    obtain ⟨k, hk⟩ := hA.tri_int hB hZ
    have hu2 : u ^ 2 ≠ 0 := pow_ne_zero 2 hu0.ne'
    have e : tri x y z = (σ - τ) * tri A B z := by rw [hτ, hσ, tri_along₂]
    by_contra hne
    have h1 : tri x y z / u ^ 2 * ((q * q' : ℤ) : F) = (((p' * q - p * q') * k : ℤ) : F) := by
      rw [e, hk]
      push_cast
      rw [← hpq, ← hpq']
      field_simp
    have hM : ((|q * q'| : ℤ) : F) ≤ 4 * (N : F) ^ 4 := by
      rw [abs_mul]
      push_cast
      have a1 := hcast q hq
      have a2 := hcast q' hq'
      push_cast at a1 a2
      have := mul_le_mul a1 a2 (abs_nonneg _) (by positivity)
      nlinarith
    have h2 := fraction_gap h1 (div_ne_zero hne hu2) (mul_ne_zero hq0 hq0') hM
    rw [abs_div, abs_of_pos (pow_pos hu0 2)] at h2
    have h3 : u ^ 2 ≤ |tri x y z| * (4 * (N : F) ^ 4) := by
      rw [div_mul_eq_mul_div, le_div_iff₀ (pow_pos hu0 2), one_mul] at h2
      exact h2
    have h4 : |tri x y z| * (4 * (N : F) ^ 4) < 1 / 10000 * (4 * (N : F) ^ 4) :=
      mul_lt_mul_of_pos_right hlt (by positivity)
    have h6 : ((N : F) ^ 2 / 50) ^ 2 ≤ u ^ 2 := pow_le_pow_left₀ (by positivity) hu 2
    nlinarith

/-- Different points where sight lines from the same eye hit an edge of a mesh on a grid are not too close, if the
cells are not too small. -/
theorem noSliver_of_grid {m : Mesh (Ext F)} {start o : Vec2 F} {u : F} {N : Nat} (hN : 1 ≤ N) (hu0 : 0 < u)
    (hu : (N : F) ^ 4 / 25000 ≤ u) (hv : ∀ v, IsVertex m v → OnGrid o u N v) (hs : OnGrid o u N start)
    {r A B x y : Vec2 F} (hr : Eye m start r) (hx : Sight m start r A B x) (hy : Sight m start r A B y)
    (hlt : sqDist x y < 1 / 10000000000) : x = y := by
  have heye : ∀ v, Eye m start v → OnGrid o u N v := by
    rintro v (rfl | h)
    · exact hs
    · exact hv v h
  have hcast : ∀ q : ℤ, |q| ≤ 2 * N ^ 2 → ((|q| : ℤ) : F) ≤ 2 * (N : F) ^ 2 := by
    intro q hq
    exact_mod_cast hq
  have N1 : (1 : F) ≤ N := by exact_mod_cast hN
  obtain ⟨-, -, τ, p, q, -, -, hτ, hq0, hq, hpq⟩ := hx.grid hN hu0 heye hr
  obtain ⟨-, -, σ, p', q', -, -, hσ, hq0', hq', hpq'⟩ := hy.grid hN hu0 heye hr
  have hA := heye A (.inr (hx.1.isVertex A (.inl rfl)))
  have hB := heye B (.inr (hx.1.isVertex B (.inr rfl)))
  by_contra hne
  have hAB : A ≠ B := by
    rintro rfl
    exact hne (by rw [hτ, hσ, along_self, along_self])
  have hlen : u ^ 2 ≤ (B.x - A.x) * (B.x - A.x) + (B.y - A.y) * (B.y - A.y) := by
    have h0 := sq_ne_zero hAB
    obtain ⟨ai, aj, -, -, rfl⟩ := hA
    obtain ⟨bi, bj, -, -, rfl⟩ := hB
    have e : (o.x + u * bi - (o.x + u * ai)) * (o.x + u * bi - (o.x + u * ai))
        + (o.y + u * bj - (o.y + u * aj)) * (o.y + u * bj - (o.y + u * aj))
        = u ^ 2 * ((((bi : ℤ) - ai) ^ 2 + ((bj : ℤ) - aj) ^ 2 : ℤ) : F) := by push_cast; ring
    simp only at h0 ⊢
    rw [e] at h0 ⊢
    have hz : (((bi : ℤ) - ai) ^ 2 + ((bj : ℤ) - aj) ^ 2 : ℤ) ≠ 0 := by
      intro hz; rw [hz] at h0; simp at h0
    have hpos : (1 : ℤ) ≤ ((bi : ℤ) - ai) ^ 2 + ((bj : ℤ) - aj) ^ 2 := by
      have := sq_nonneg ((bi : ℤ) - ai)
      have := sq_nonneg ((bj : ℤ) - aj)
      omega
    have : (1 : F) ≤ ((((bi : ℤ) - ai) ^ 2 + ((bj : ℤ) - aj) ^ 2 : ℤ) : F) := by exact_mod_cast hpos
    have := mul_le_mul_of_nonneg_left this (pow_pos hu0 2).le
    linarith
  have hd : sqDist x y = (τ - σ) * (τ - σ) * ((B.x - A.x) * (B.x - A.x) + (B.y - A.y) * (B.y - A.y)) := by
    rw [hτ, hσ]; simp only [sqDist, along]; ring
  have h1 : (τ - σ) * ((q * q' : ℤ) : F) = ((p * q' - p' * q : ℤ) : F) := by
    push_cast
    rw [← hpq, ← hpq']
    ring
  have hM : ((|q * q'| : ℤ) : F) ≤ 4 * (N : F) ^ 4 := by
    rw [abs_mul]
    push_cast
    have a1 := hcast q hq
    have a2 := hcast q' hq'
    push_cast at a1 a2
    have := mul_le_mul a1 a2 (abs_nonneg _) (by positivity)
    nlinarith
  have hne' : τ - σ ≠ 0 := by
    intro h
    apply hne
    rw [hτ, hσ, sub_eq_zero.1 h]
  have h2 := fraction_gap h1 hne' (mul_ne_zero hq0 hq0') hM
  have h3 := mul_le_mul_of_nonneg_left hlen (mul_self_nonneg (τ - σ))
  rw [← hd] at h3
  have h4 : 1 ≤ (τ - σ) * (τ - σ) * (4 * (N : F) ^ 4) ^ 2 := by
    have := mul_le_mul h2 h2 zero_le_one (by linarith)
    have e : |τ - σ| * (4 * (N : F) ^ 4) * (|τ - σ| * (4 * (N : F) ^ 4)) = |τ - σ| * |τ - σ| * (4 * (N : F) ^ 4) ^ 2 := by
      ring
    rw [e, abs_mul_abs_self] at this
    linarith
  have hN4 : (0 : F) < (N : F) ^ 4 := by positivity
  have h5 : u ^ 2 < 1 / 10000000000 * (4 * (N : F) ^ 4) ^ 2 := by
    have h6 : (τ - σ) * (τ - σ) * u ^ 2 < 1 / 10000000000 := h3.trans_lt hlt
    have h7 := mul_lt_mul_of_pos_right h6 (by positivity : (0 : F) < (4 * (N : F) ^ 4) ^ 2)
    have h8 := mul_le_mul_of_nonneg_right h4 (sq_nonneg u)
    nlinarith
  have h6 : ((N : F) ^ 4 / 25000) ^ 2 ≤ u ^ 2 := pow_le_pow_left₀ (by positivity) hu 2
  nlinarith

end Polyanya
