import Verif.Spec.Decimal32
import Verif.Props.FileExamples
import Verif.Proofs.Exact32
/-
C73: f32 coordinates in files.
-/

namespace Polyanya

open B32

theorem decimalText_visible (neg : Bool) (n : Nat) : ∀ b ∈ decimalText neg n, 32 < b ∧ b < 128 := by
  intro b hb
  simp only [decimalText, List.mem_append, List.mem_singleton] at hb
  rcases hb with ((hb | hb) | rfl) | hb
  · split at hb
    · rw [List.mem_singleton] at hb
      subst hb; decide
    · simp at hb
  · exact natBytes_visible _ b hb
  · decide
  · have := isDigit_visible (sixDigits_digits _ b hb)
    exact ⟨this.1, this.2.1⟩

theorem val_bound {x : B32} (h : Finite x) : |val x| ≤ 2 ^ 128 - 2 ^ 104 := by
  match x, h with
  | fin a m, h =>
    obtain ⟨⟨k, e, hk, rfl⟩, ho⟩ := h
    have hv : |val (fin a (k * 2 ^ e))| = (k * 2 ^ e : ℚ) / 2 ^ 149 := by
      unfold val
      rw [abs_div, abs_mul]
      have h1 : |(if a = true then (-1 : ℚ) else 1)| = 1 := by cases a <;> simp
      have h2 : |(2 : ℚ) ^ 149| = 2 ^ 149 := abs_of_pos (by positivity)
      rw [h1, h2, one_mul]
      push_cast
      rw [abs_of_nonneg (by positivity)]
    rw [hv, div_le_iff₀ (by positivity)]
    have hkey : k * 2 ^ e ≤ 2 ^ 277 - 2 ^ 253 := by
      unfold overflow at ho
      by_cases he : e ≤ 253
      · have h1 : k ≤ 2 ^ 24 - 1 := by omega
        calc k * 2 ^ e ≤ (2 ^ 24 - 1) * 2 ^ 253 := Nat.mul_le_mul h1 (Nat.pow_le_pow_right (by decide) he)
          _ = 2 ^ 277 - 2 ^ 253 := by rw [Nat.sub_mul, one_mul, ← pow_add]
      · obtain ⟨j, rfl⟩ : ∃ j, e = 253 + j := ⟨e - 253, by omega⟩
        have h2 : k * 2 ^ (253 + j) = (k * 2 ^ j) * 2 ^ 253 := by rw [pow_add]; ring
        have h3 : (2 : Nat) ^ 277 = 2 ^ 24 * 2 ^ 253 := by rw [← pow_add]
        rw [h2] at ho ⊢
        rw [h3] at ho ⊢
        have h4 : k * 2 ^ j < 2 ^ 24 := lt_of_mul_lt_mul_right ho (Nat.zero_le _)
        have h5 : k * 2 ^ j ≤ 2 ^ 24 - 1 := by omega
        calc (k * 2 ^ j) * 2 ^ 253 ≤ (2 ^ 24 - 1) * 2 ^ 253 := Nat.mul_le_mul_right _ h5
          _ = 2 ^ 24 * 2 ^ 253 - 2 ^ 253 := by rw [Nat.sub_mul, one_mul]
    have hkq : ((k * 2 ^ e : Nat) : ℚ) ≤ ((2 ^ 277 - 2 ^ 253 : Nat) : ℚ) := by exact_mod_cast hkey
    rw [Nat.cast_sub (Nat.pow_le_pow_right (by decide) (by decide))] at hkq
    push_cast at hkq
    refine le_trans hkq (le_of_eq ?_)
    rw [sub_mul, ← pow_add, ← pow_add]
    simp only [Nat.reduceAdd]
    norm_num

theorem natAbs_rat (z : Int) : ((z.natAbs : Nat) : ℚ) = |(z : ℚ)| := by
  rw [← Int.cast_abs, ← Int.natCast_natAbs]
  rfl

theorem fin_of_val {a : Bool} {m n : Nat} (h : val (fin a m) = val (fin a n)) : m = n := by
  have h1 := h
  unfold val at h1
  rw [div_left_inj' (by positivity)] at h1
  have h2 : (if a = true then (-1 : ℚ) else 1) ≠ 0 := by cases a <;> simp
  have := mul_left_cancel₀ h2 h1
  exact_mod_cast this

/-- A millionth is no difference of binary32 numbers. -/
theorem val_sub_ne (a b : Bool) (m n : Nat) : |val (fin a m) - val (fin b n)| ≠ 1 / 1000000 := by
  rw [val_fin, val_fin]
  intro h
  generalize signed a m = s at h
  generalize signed b n = t at h
  have h1 : |((s - t : Int) : ℚ)| * 1000000 = 2 ^ 149 := by
    have e : ((s : ℚ) / 2 ^ 149 - t / 2 ^ 149) = ((s - t : Int) : ℚ) / 2 ^ 149 := by push_cast; ring
    rw [e, abs_div, abs_of_pos (show (0 : ℚ) < 2 ^ 149 by positivity)] at h
    field_simp at h
    linarith
  have h2 : ((s - t).natAbs * 1000000 : ℚ) = 2 ^ 149 := by
    rw [← h1, natAbs_rat]
  have h3 : (s - t).natAbs * 1000000 = 2 ^ 149 := by exact_mod_cast h2
  have h4 : 5 ∣ 2 ^ 149 := ⟨(s - t).natAbs * 200000, by omega⟩
  exact absurd h4 (by decide +kernel)

/-- Distinct numbers, one of them larger than 16, are more than a millionth apart. -/
theorem val_gap {a b : Bool} {m n : Nat} (hx : Finite (fin a m)) (hy : Finite (fin b n)) (h16 : 16 < |val (fin a m)|)
    (hne : val (fin b n) ≠ val (fin a m)) : 1 / 1000000 < |val (fin b n) - val (fin a m)| := by
  have key : ∀ {k : Nat}, Bits24 k → 2 ^ 153 ≤ k → 2 ^ 130 ∣ k := by
    rintro k ⟨c, e, hc, rfl⟩ hk
    have he : 130 ≤ e := by
      by_contra hlt
      have h1 : e ≤ 129 := by omega
      have : c * 2 ^ e < 2 ^ 24 * 2 ^ 129 :=
        lt_of_lt_of_le (Nat.mul_lt_mul_of_pos_right hc (by positivity)) (Nat.mul_le_mul_left _ (Nat.pow_le_pow_right (by decide) h1))
      rw [← pow_add] at this
      omega
    exact Dvd.dvd.mul_left (pow_dvd_pow 2 he) c
  have hm : 2 ^ 153 < m := by
    have e : |val (fin a m)| = (m : ℚ) / 2 ^ 149 := by
      unfold val
      rw [abs_div, abs_mul]
      have h1 : |(if a = true then (-1 : ℚ) else 1)| = 1 := by cases a <;> simp
      have h2 : |(2 : ℚ) ^ 149| = 2 ^ 149 := abs_of_pos (by positivity)
      rw [h1, h2, one_mul, abs_of_nonneg (by positivity)]
    rw [e, lt_div_iff₀ (by positivity)] at h16
    have h2 : ((2 ^ 153 : Nat) : ℚ) < m := by
      refine lt_of_eq_of_lt ?_ h16
      norm_num
    exact_mod_cast h2
  obtain ⟨c, hc⟩ := key hx.1 hm.le
  have hgap : 2 ^ 130 ≤ (signed b n - signed a m).natAbs := by
    have hd : signed b n ≠ signed a m := by
      intro h
      apply hne
      rw [val_fin, val_fin, h]
    by_cases hn : 2 ^ 153 ≤ n
    · obtain ⟨d, hd'⟩ := key hy.1 hn
      have h1 : (2 ^ 130 : Int) ∣ signed b n - signed a m := by
        apply dvd_sub
        · unfold signed
          subst hd'
          split
          · exact (Dvd.intro _ (by push_cast; ring : (2 : Int) ^ 130 * (-(d : Int)) = _))
          · exact (Dvd.intro _ (by push_cast; ring : (2 : Int) ^ 130 * (d : Int) = _))
        · unfold signed
          subst hc
          split
          · exact (Dvd.intro _ (by push_cast; ring : (2 : Int) ^ 130 * (-(c : Int)) = _))
          · exact (Dvd.intro _ (by push_cast; ring : (2 : Int) ^ 130 * (c : Int) = _))
      have h2 := Int.natAbs_dvd_natAbs.2 h1
      exact Nat.le_of_dvd (by omega) h2
    · have hc2 : 2 ^ 153 + 2 ^ 130 ≤ m := by
        subst hc
        have h1 : (2 : Nat) ^ 153 = 2 ^ 130 * 2 ^ 23 := by rw [← pow_add]
        rw [h1] at hm ⊢
        have h2 : 2 ^ 23 < c := lt_of_mul_lt_mul_left hm (Nat.zero_le _)
        calc 2 ^ 130 * 2 ^ 23 + 2 ^ 130 = 2 ^ 130 * (2 ^ 23 + 1) := by ring
          _ ≤ 2 ^ 130 * c := Nat.mul_le_mul_left _ h2
      unfold signed
      split <;> split <;> omega
  rw [val_fin, val_fin]
  have e : ((signed b n : ℚ) / 2 ^ 149 - (signed a m : ℚ) / 2 ^ 149) = ((signed b n - signed a m : Int) : ℚ) / 2 ^ 149 := by
    push_cast; ring
  rw [e, abs_div, abs_of_pos (show (0 : ℚ) < 2 ^ 149 by positivity), lt_div_iff₀ (by positivity)]
  have h3 : |((signed b n - signed a m : Int) : ℚ)| = ((signed b n - signed a m).natAbs : ℚ) := by
    exact (natAbs_rat _).symm
  rw [h3]
  have h4 : ((2 ^ 130 : Nat) : ℚ) ≤ ((signed b n - signed a m).natAbs : ℚ) := by exact_mod_cast hgap
  push_cast at h4
  refine lt_of_lt_of_le ?_ h4
  rw [show (149 : Nat) = 19 + 130 by rfl, pow_add, ← mul_assoc]
  have h5 : (0 : ℚ) < 2 ^ 130 := by positivity
  nlinarith

/-- The number read back. -/
theorem decimal_back [FloatText B32] [DecimalLaws] {x : B32} (hx : Finite x) :
    Printable x ∧ ∃ y, SixDecimals x y ∧ KeptNumber x y := by
  match x, hx with
  | fin a m, hx =>
    obtain ⟨n, hn, hclose⟩ := DecimalLaws.fmt a m hx
    obtain ⟨y, hy, hround, hsign⟩ := DecimalLaws.parse a n
    have hnear : Nearest (decimalValue a n) y := by
      rcases hround with h | ⟨h, -⟩
      · exact h
      · exfalso
        have hb := val_bound hx
        have h1 : |decimalValue a n| ≤ |val (fin a m)| + 1 / 2 / 1000000 := by
          have := abs_sub_abs_le_abs_sub (decimalValue a n) (val (fin a m))
          linarith
        have h2 : (2 : ℚ) ^ 104 = 2 * 2 ^ 103 := by rw [← pow_succ']
        have h3 : (1 : ℚ) ≤ 2 ^ 103 := one_le_pow₀ (by norm_num)
        linarith
    obtain ⟨hfin, hmin⟩ := hnear
    match y, hfin, hsign with
    | fin b k, hfin, hsign =>
      have hb : b = a := hsign
      subst hb
      have hle := hmin _ hx
      have hyd : |val (fin b k) - decimalValue b n| ≤ 1 / 2 / 1000000 := by
        rw [abs_sub_comm (val (fin b m))] at hle
        linarith
      have hxy : |val (fin b k) - val (fin b m)| ≤ 1 / 1000000 := by
        have := abs_add_le (val (fin b k) - decimalValue b n) (decimalValue b n - val (fin b m))
        rw [sub_add_sub_cancel] at this
        linarith
      have hfmt : FloatText.fmt6 (fin b k) = FloatText.fmt6 (fin b m) := by
        by_cases hk : k = m
        · rw [hk]
        have hlt : |val (fin b k) - val (fin b m)| < 1 / 1000000 := lt_of_le_of_ne hxy (val_sub_ne b b k m)
        obtain ⟨n', hn', hclose'⟩ := DecimalLaws.fmt b k hfin
        rw [hn', hn]
        have hd : |decimalValue b n' - decimalValue b n| < 1 / 1000000 := by
          have hstrict : |val (fin b k) - decimalValue b n| < 1 / 2 / 1000000 ∨
              |val (fin b k) - decimalValue b n| = 1 / 2 / 1000000 := lt_or_eq_of_le hyd
          have h1 := abs_add_le (decimalValue b n' - val (fin b k)) (val (fin b k) - decimalValue b n)
          rw [sub_add_sub_cancel] at h1
          rcases hstrict with hs | hs
          · linarith
          · exfalso
            have hxd : |val (fin b m) - decimalValue b n| = 1 / 2 / 1000000 := by
              apply le_antisymm
              · rw [abs_sub_comm]; exact hclose
              · rw [← hs]; exact hle
            have hvne : val (fin b k) ≠ val (fin b m) := fun h => hk (fin_of_val h)
            have hopp : |val (fin b k) - val (fin b m)| = 1 / 1000000 := by
              rcases abs_cases (val (fin b k) - decimalValue b n) with ⟨p1, -⟩ | ⟨p1, -⟩ <;>
              rcases abs_cases (val (fin b m) - decimalValue b n) with ⟨p2, -⟩ | ⟨p2, -⟩
              · exact absurd (by linarith) hvne
              · rw [show val (fin b k) - val (fin b m) = 1 / 1000000 by linarith]; norm_num
              · rw [show val (fin b k) - val (fin b m) = -(1 / 1000000) by linarith]; norm_num
              · exact absurd (by linarith) hvne
            exact val_sub_ne b b k m hopp
        have hnn : n' = n := by
          have e : decimalValue b n' - decimalValue b n = (if b = true then (-1 : ℚ) else 1) * (((n' : Int) - n : Int) : ℚ) / 1000000 := by
            unfold decimalValue
            push_cast
            ring
          have h1 : |(if b = true then (-1 : ℚ) else 1)| = 1 := by cases b <;> simp
          rw [e, abs_div, abs_mul, h1, one_mul, abs_of_pos (show (0 : ℚ) < 1000000 by norm_num),
            div_lt_div_iff_of_pos_right (by norm_num)] at hd
          have h2 : |(n' : Int) - n| < 1 := by exact_mod_cast hd
          rw [Int.abs_lt_one_iff] at h2
          omega
        rw [hnn]
      refine ⟨⟨?_, fin b k, ?_, hfmt⟩, fin b k, ?_, hfin, hxy, ?_⟩
      · rw [hn]; exact decimalText_visible b n
      · rw [hn, hy]
      · unfold SixDecimals; rw [hn, hy]
      · rintro (h16 | ⟨z, hz⟩)
        · by_contra hne
          have hvne : val (fin b k) ≠ val (fin b m) := fun h => hne (by rw [fin_of_val h])
          have := val_gap hx hfin h16 hvne
          linarith
        · have hD : decimalValue b n = val (fin b m) := by
            have e : decimalValue b n - val (fin b m) = (((signed b n) - z : Int) : ℚ) / 1000000 := by
              rw [hz]
              unfold decimalValue
              have := signed_cast b n
              push_cast
              rw [this]
              ring
            rw [e, abs_div, abs_of_pos (show (0 : ℚ) < 1000000 by norm_num), div_le_div_iff_of_pos_right (by norm_num)] at hclose
            have h2 : |((signed b n - z : Int) : ℚ)| < 1 := lt_of_le_of_lt hclose (by norm_num)
            have h3 : |signed b n - z| < 1 := by exact_mod_cast h2
            rw [Int.abs_lt_one_iff] at h3
            rw [h3] at e
            simp only [Int.cast_zero, zero_div] at e
            linarith
          rw [hD, sub_self, abs_zero] at hle
          have h0 : val (fin b k) = val (fin b m) := by
            have := abs_nonpos_iff.1 hle
            linarith
          rw [fin_of_val h0]

/-- **C73**: a file with finite f32 coordinates can be written and read back, if every polygon has a corner and the numbers of
vertices and polygons are below `2^31`. Every coordinate read differs by at most a millionth from the one written, and is the
same if it is larger than 16 or has at most six decimals; neighbours, order, and polygons are kept as in C29. Writing and reading
again gives exactly the same file. -/
theorem C73_round_trip [FloatText B32] [DecimalLaws] (f : PolyanyaFile B32) (hfin : FiniteFile f) (hf : FileSize f)
    (hne : ∀ p ∈ f.polygons, p.vertices ≠ []) :
    ∃ f', PolyanyaFile.fromBytes f.toBytes = .ok f' ∧
      List.Forall₂ (fun v v' : Vertex B32 => KeptNumber v.coords.x v'.coords.x ∧ KeptNumber v.coords.y v'.coords.y ∧
        v'.polygons = if v.polygons = [] then [u32Max] else v.polygons) f.vertices f'.vertices ∧
      List.Forall₂ (fun p p' => p'.vertices = p.vertices ∧ p'.isOneWay = false) f.polygons f'.polygons ∧
      PolyanyaFile.fromBytes f'.toBytes = .ok f' := by
  have hpr : PrintableFile f := fun v hv => ⟨(decimal_back (hfin v hv).1).1, (decimal_back (hfin v hv).2).1⟩
  obtain ⟨f', h1, h2, h3, h4, -⟩ := C29_round_trip f hpr hf hne
  refine ⟨f', h1, ?_, h3, h4⟩
  have hkept : ∀ {x y : B32}, Finite x → SixDecimals x y → KeptNumber x y := by
    intro x y hx hy
    obtain ⟨-, z, hz, hk⟩ := decimal_back hx
    unfold SixDecimals at hy hz
    rw [hy, Option.some.injEq] at hz
    subst hz
    exact hk
  rw [List.forall₂_iff_get] at h2 ⊢
  refine ⟨h2.1, fun i hi hj => ?_⟩
  have hb := h2.2 i hi hj
  have hv := hfin _ (List.getElem_mem hi)
  exact ⟨hkept hv.1 hb.x, hkept hv.2 hb.y, hb.neighbours⟩

end Polyanya
