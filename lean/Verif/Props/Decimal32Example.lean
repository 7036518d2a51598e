import Verif.Props.Decimal32
import Verif.Proofs.Binary32
/-
C73: a text form of binary32 numbers that meets the laws, and a file.
-/

namespace Polyanya

open B32

/-- Formatting with ties to even, parsing of numbers with six decimals. -/
instance decimal32 : FloatText B32 where
  fmt6
    | .nan => [78, 97, 78]
    | .inf neg => (if neg then [45] else []) ++ [105, 110, 102]
    | .fin neg mag => decimalText neg (roundTo 0 (mag * 1000000) (2 ^ 149))
  parse bs :=
    if bs = [78, 97, 78] then some .nan
    else if bs = [105, 110, 102] then some (.inf false)
    else if bs = [45, 105, 110, 102] then some (.inf true)
    else if bs.head? = some 45 then (parseMicroAbs bs.tail).map (fun n => B32.round true (n * 2 ^ 149) 1000000)
    else (parseMicroAbs bs).map (fun n => B32.round false (n * 2 ^ 149) 1000000)

theorem round_signNeg (neg : Bool) (N D : Nat) : signNeg (B32.round neg N D) = neg := by
  unfold B32.round
  simp only
  split <;> rfl

theorem decimalText_head (neg : Bool) (n : Nat) : (decimalText neg n).head? = some 45 ↔ neg = true := by
  unfold decimalText
  cases neg
  · simp only [Bool.false_eq_true, if_false, List.nil_append, iff_false]
    obtain ⟨hne, hd, -⟩ := natBytes_spec (n / 1000000)
    obtain ⟨b, bs, e⟩ := List.exists_cons_of_ne_nil hne
    rw [e]
    simp only [List.cons_append, List.head?_cons, Option.some.injEq]
    exact (isDigit_visible (hd b (by rw [e]; simp))).2.2.2
  · simp

theorem decimalText_point (neg : Bool) (n : Nat) : (46 : UInt8) ∈ decimalText neg n := by
  unfold decimalText
  simp

instance : DecimalLaws where
  fmt neg mag _ := by
    refine ⟨_, rfl, ?_⟩
    have hkey : |((roundTo 0 (mag * 1000000) (2 ^ 149) : Nat) : ℚ) - mag * 1000000 / 2 ^ 149| ≤ 1 / 2 := by
      have hdm := Nat.div_add_mod (mag * 1000000) (2 ^ 149)
      have hdm' : ((2 ^ 149 : Nat) : ℚ) * ((mag * 1000000 / 2 ^ 149 : Nat) : ℚ) + ((mag * 1000000 % 2 ^ 149 : Nat) : ℚ) =
          ((mag * 1000000 : Nat) : ℚ) := by exact_mod_cast hdm
      have hr : mag * 1000000 % 2 ^ 149 < 2 ^ 149 := Nat.mod_lt _ (by positivity)
      have hpos : (0 : ℚ) < 2 ^ 149 := by positivity
      have e : (mag * 1000000 / 2 ^ 149 : ℚ) = ((mag * 1000000 / 2 ^ 149 : Nat) : ℚ) +
          ((mag * 1000000 % 2 ^ 149 : Nat) : ℚ) / 2 ^ 149 := by
        rw [div_eq_iff hpos.ne', add_mul, div_mul_cancel₀ _ hpos.ne', mul_comm _ ((2 : ℚ) ^ 149)]
        push_cast at hdm' ⊢
        exact hdm'.symm
      have hc := roundTo_cases 0 (mag * 1000000) (2 ^ 149)
      simp only [pow_zero, mul_one] at hc
      generalize hq : mag * 1000000 / 2 ^ 149 = q at *
      generalize hrr : mag * 1000000 % 2 ^ 149 = r at *
      rw [e]
      have hdiv : ((r : ℚ) / 2 ^ 149) * 2 ^ 149 = r := div_mul_cancel₀ _ hpos.ne'
      rcases hc with ⟨h, h2, -⟩ | ⟨h, h2, -⟩
      · rw [h]
        have h3 : 2 * (r : ℚ) ≤ 2 ^ 149 := by exact_mod_cast h2
        have h4 : 0 ≤ (r : ℚ) / 2 ^ 149 := by positivity
        have h5 : (r : ℚ) / 2 ^ 149 ≤ 1 / 2 := by rw [div_le_iff₀ hpos]; linarith
        rw [abs_le]
        constructor <;> linarith
      · rw [h]
        have h3 : (2 : ℚ) ^ 149 ≤ 2 * (r : ℚ) := by exact_mod_cast h2
        have h3' : (r : ℚ) < 2 ^ 149 := by exact_mod_cast hr
        have h5 : 1 / 2 ≤ (r : ℚ) / 2 ^ 149 := by rw [le_div_iff₀ hpos]; linarith
        have h6 : (r : ℚ) / 2 ^ 149 < 1 := by rw [div_lt_one hpos]; exact h3'
        push_cast
        rw [abs_le]
        constructor <;> linarith
    have e : decimalValue neg (roundTo 0 (mag * 1000000) (2 ^ 149)) - val (fin neg mag) = (if neg = true then (-1 : ℚ) else 1) *
        (((roundTo 0 (mag * 1000000) (2 ^ 149) : Nat) : ℚ) - mag * 1000000 / 2 ^ 149) / 1000000 := by
      unfold decimalValue val
      ring
    have h1 : |(if neg = true then (-1 : ℚ) else 1)| = 1 := by cases neg <;> simp
    rw [e, abs_div, abs_mul, h1, one_mul, abs_of_pos (show (0 : ℚ) < 1000000 by norm_num)]
    exact div_le_div_of_nonneg_right hkey (by norm_num)
  parse neg n := by
    refine ⟨B32.round neg (n * 2 ^ 149) 1000000, ?_, round_rounded neg (by norm_num) ?_, round_signNeg _ _ _⟩
    · have hp := decimalText_point neg n
      have hh := decimalText_head neg n
      have hne : ∀ l : List UInt8, 46 ∉ l → decimalText neg n ≠ l := fun l hl h => hl (h ▸ hp)
      show (if decimalText neg n = _ then _ else _) = _
      rw [if_neg (hne _ (by decide)), if_neg (hne _ (by decide)), if_neg (hne _ (by decide))]
      cases neg
      · rw [if_neg (by rw [hh]; simp)]
        have : decimalText false n = natBytes (n / 1000000) ++ [46] ++ sixDigits (n % 1000000) := by simp [decimalText]
        rw [this, parseMicroAbs_bytes]
        rfl
      · rw [if_pos (by rw [hh])]
        have : (decimalText true n).tail = natBytes (n / 1000000) ++ [46] ++ sixDigits (n % 1000000) := by simp [decimalText]
        rw [this, parseMicroAbs_bytes]
        rfl
    · unfold decimalValue
      push_cast
      field_simp
      norm_num

/-- A triangle and a square with f32 coordinates: on the grid of millionths, between, and large. -/
def f32File : PolyanyaFile B32 :=
  { vertices := [Vertex.new (f2 0 (-3 / 2)) [0, u32Max], Vertex.new (f2 (1 / 3) 0) [0, 1, u32Max],
      Vertex.new (f2 (123456789 / 1000) (1 / 30000000)) [], Vertex.new (f2 (1 / 128) 7) [1, u32Max]]
    polygons := [Polygon.new [0, 1, 2] true, Polygon.new [0, 1, 2, 3] false] }

/-- A number is finite if its magnitude has 24 bits, and is not too large. -/
theorem finite_of_check {neg : Bool} {mag : Nat} (e : Nat) (h : mag % 2 ^ e = 0 ∧ mag / 2 ^ e < 2 ^ 24 ∧ mag < overflow) :
    Finite (.fin neg mag) :=
  ⟨⟨mag / 2 ^ e, e, h.2.1, (Nat.div_mul_cancel (Nat.dvd_of_mod_eq_zero h.1)).symm⟩, h.2.2⟩

/-- Checks that a number is finite, with the exponent of its last place. -/
def finiteCheck : B32 → Bool
  | .fin _ m => decide (m % 2 ^ ulpExp m = 0) && decide (m / 2 ^ ulpExp m < 2 ^ 24) && decide (m < overflow)
  | _ => false

theorem finite_of_finiteCheck {x : B32} (h : finiteCheck x = true) : Finite x := by
  cases x with
  | fin a m =>
    simp only [finiteCheck, Bool.and_eq_true, decide_eq_true_eq] at h
    exact finite_of_check _ ⟨h.1.1, h.1.2, h.2⟩
  | _ => cases h

/-- **C73** applies to it. -/
theorem C73_example : FiniteFile f32File ∧ FileSize f32File ∧ ∀ p ∈ f32File.polygons, p.vertices ≠ [] := by
  refine ⟨?_, ⟨by decide, by decide, by decide⟩, by decide⟩
  have h : ∀ v ∈ f32File.vertices, finiteCheck v.coords.x = true ∧ finiteCheck v.coords.y = true := by decide +kernel
  exact fun v hv => ⟨finite_of_finiteCheck (h v hv).1, finite_of_finiteCheck (h v hv).2⟩

/-- Its text. -/
example : f32File.toBytes = "mesh
2
4 2
0.000000 -1.500000 2 0 4294967295
0.333333 0.000000 3 0 1 4294967295
123456.789062 0.000000 0 
0.007812 7.000000 2 1 4294967295
3 0 1 2
4 0 1 2 3
".toUTF8.toList := by decide +kernel

end Polyanya
