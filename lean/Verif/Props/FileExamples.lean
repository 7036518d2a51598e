import Verif.Props.File
import Verif.Spec.RatScalar
import Verif.Spec.Decimal32
import Mathlib.Data.Rat.Floor
import Mathlib.Tactic.Linarith
import Mathlib.Tactic.NormNum
import Mathlib.Tactic.Ring
/-
A text form of the rationals with six decimals that meets the assumptions of C29, and a file.
-/

namespace Polyanya

/-- `n / 10^6` in decimal. -/
def microBytes (n : Int) : List UInt8 :=
  (if n < 0 then [45] else []) ++ natBytes (n.natAbs / 1000000) ++ [46] ++ sixDigits (n.natAbs % 1000000)

/-- Rounding to a millionth. -/
def micro (x : Rat) : Int := ⌊x * 1000000 + 1 / 2⌋

/-- Digits with a point before the last six. -/
def parseMicroAbs (bs : List UInt8) : Option Nat :=
  if ((bs.dropWhile (· != 46)).tail).length = 6 then
    digitsValue 0 (bs.takeWhile (· != 46) ++ (bs.dropWhile (· != 46)).tail)
  else none

def parseMicro (bs : List UInt8) : Option Int :=
  if bs.head? = some 45 then (parseMicroAbs bs.tail).map (fun n : Nat => -(n : Int)) else (parseMicroAbs bs).map Int.ofNat

instance : FloatText Rat where
  fmt6 x := microBytes (micro x)
  parse bs := (parseMicro bs).map (fun n : Int => (n : Rat) / 1000000)

theorem sixDigits_digits (m : Nat) : ∀ b ∈ sixDigits m, IsDigit b := by
  intro b hb
  simp only [sixDigits, List.mem_cons, List.not_mem_nil, or_false] at hb
  rcases hb with rfl | rfl | rfl | rfl | rfl | rfl <;> exact (digit_ok (Nat.mod_lt _ (by decide))).1

theorem isDigit_visible {b : UInt8} (h : IsDigit b) : 32 < b ∧ b < 128 ∧ b ≠ 46 ∧ b ≠ 45 := by
  unfold IsDigit at h
  refine ⟨?_, ?_, ?_, ?_⟩
  · exact UInt8.lt_of_lt_of_le (by decide) h.1
  · exact UInt8.lt_of_le_of_lt h.2 (by decide)
  · rintro rfl; exact absurd h.1 (by decide)
  · rintro rfl; exact absurd h.1 (by decide)

theorem digitsValue_six (q m : Nat) (h : m < 1000000) : digitsValue q (sixDigits m) = some (q * 1000000 + m) := by
  unfold sixDigits
  rw [digitsValue_digit (Nat.mod_lt _ (by decide)), digitsValue_digit (Nat.mod_lt _ (by decide)),
    digitsValue_digit (Nat.mod_lt _ (by decide)), digitsValue_digit (Nat.mod_lt _ (by decide)),
    digitsValue_digit (Nat.mod_lt _ (by decide)), digitsValue_digit (Nat.mod_lt _ (by decide)), digitsValue]
  congr 1
  omega

theorem parseMicroAbs_bytes (n : Nat) :
    parseMicroAbs (natBytes (n / 1000000) ++ [46] ++ sixDigits (n % 1000000)) = some n := by
  have hd : ∀ b ∈ natBytes (n / 1000000), (b != 46) = true := by
    intro b hb
    rw [bne_iff_ne]
    exact (isDigit_visible ((natBytes_spec _).2.1 b hb)).2.2.1
  unfold parseMicroAbs
  rw [List.append_assoc, List.takeWhile_append_of_pos hd, List.dropWhile_append_of_pos hd]
  simp only [List.singleton_append, bne_self_eq_false, Bool.false_eq_true, not_false_eq_true, List.dropWhile_cons_of_neg,
    List.tail_cons, List.takeWhile_cons_of_neg, List.append_nil]
  rw [if_pos (by simp [sixDigits])]
  obtain ⟨ds, e, -, -, hv⟩ := natBytesAux_spec (n / 1000000 + 1) (n / 1000000) [] (by omega)
  rw [List.append_nil] at e
  unfold natBytes
  rw [e, hv, digitsValue_six _ _ (Nat.mod_lt _ (by decide))]
  congr 1
  omega

theorem parseMicro_bytes (n : Int) : parseMicro (microBytes n) = some n := by
  unfold microBytes parseMicro
  by_cases h : n < 0
  · rw [if_pos h]
    have e : [45] ++ natBytes (n.natAbs / 1000000) ++ [46] ++ sixDigits (n.natAbs % 1000000) =
        45 :: (natBytes (n.natAbs / 1000000) ++ [46] ++ sixDigits (n.natAbs % 1000000)) := by simp
    rw [e, List.head?_cons, if_pos rfl, List.tail_cons, parseMicroAbs_bytes]
    simp only [Option.map_some]
    congr 1
    omega
  · rw [if_neg h, List.nil_append, if_neg]
    · rw [parseMicroAbs_bytes]
      simp only [Option.map_some]
      congr 1
      show ((n.natAbs : Nat) : Int) = n
      omega
    · obtain ⟨hne, hd, -⟩ := natBytes_spec (n.natAbs / 1000000)
      obtain ⟨b, bs, e⟩ := List.exists_cons_of_ne_nil hne
      rw [e]
      simp only [List.cons_append, List.head?_cons, Option.some.injEq]
      exact (isDigit_visible (hd b (by rw [e]; simp))).2.2.2

theorem micro_micro (n : Int) : micro ((n : Rat) / 1000000) = n := by
  unfold micro
  rw [Int.floor_eq_iff]
  constructor <;> linarith

theorem printable_rat (x : Rat) : Printable x where
  visible b hb := by
    simp only [FloatText.fmt6, microBytes, List.mem_append, List.mem_singleton] at hb
    rcases hb with ((hb | hb) | rfl) | hb
    · split at hb
      · rw [List.mem_singleton] at hb
        subst hb; decide
      · simp at hb
    · exact natBytes_visible _ b hb
    · decide
    · have := isDigit_visible (sixDigits_digits _ b hb)
      exact ⟨this.1, this.2.1⟩
  parses := by
    refine ⟨(micro x : Rat) / 1000000, ?_, ?_⟩
    · simp only [FloatText.parse, FloatText.fmt6, parseMicro_bytes, Option.map_some]
    · simp only [FloatText.fmt6, micro_micro]

/-- For this text form, six decimals means: off by at most half a millionth. -/
theorem sixDecimals_close {x y : Rat} (h : SixDecimals x y) : |y - x| ≤ 1 / 2 / 1000000 := by
  simp only [SixDecimals, FloatText.parse, FloatText.fmt6, parseMicro_bytes, Option.map_some, Option.some.injEq] at h
  subst h
  have h1 := Int.floor_le (x * 1000000 + 1 / 2)
  have h2 := Int.lt_floor_add_one (x * 1000000 + 1 / 2)
  have e : ((micro x : Int) : Rat) = ((⌊x * 1000000 + 1 / 2⌋ : Int) : Rat) := by rw [micro]
  rw [e, abs_le]
  constructor <;> linarith

/-- The text of -3/2 is `-1.500000`. -/
example : (FloatText.fmt6 (-3/2 : Rat)) = "-1.500000".toUTF8.data.toList := by decide +kernel

/-- The L-shaped mesh as a file, with a vertex off the grid of millionths, one without neighbours, and a one-way flag. -/
def exFile : PolyanyaFile Rat :=
  { vertices := Vertex.new (v2 (1/3) (-1/3)) [] :: exVertices, polygons := Polygon.new [0, 1, 2] true :: exPolygons }

/-- It meets the hypotheses of `C29_round_trip`. -/
theorem exFile_ok : PrintableFile exFile ∧ FileSize exFile ∧ ∀ p ∈ exFile.polygons, p.vertices ≠ [] := by
  refine ⟨fun v _ => ⟨printable_rat _, printable_rat _⟩, ⟨by decide, by decide, ?_⟩, ?_⟩
  · have : ∀ p ∈ exFile.polygons, p.vertices.length < 5 := by decide
    exact fun p hp => lt_trans (this p hp) (by decide)
  · decide

/-- Read back, the first vertex is at (0.333333, -0.333333) and has a gap. -/
example : resIs (PolyanyaFile.fromBytes exFile.toBytes) (fun f =>
    f.vertices.head? == some (Vertex.new (v2 (333333/1000000) (-333333/1000000)) [u32Max]) &&
    f.polygons.head? == some (Polygon.new [0, 1, 2] false) && f.vertices.length == 9 && f.polygons.length == 4) = true := by
  decide +kernel

/-- The hypotheses of `C29_empty_polygon`. -/
example : FileSize ({ exFile with polygons := [Polygon.empty] } : PolyanyaFile Rat) :=
  ⟨by decide, by decide, by decide⟩

end Polyanya
