import Verif.Spec.File
import Verif.Proofs.Safe
/-
Lemmas about the file format functions.
-/

namespace Polyanya

variable {K : Type} [Scalar K]

/-! ### Integers -/

/-- An ASCII digit. -/
def IsDigit (b : UInt8) : Prop := 48 ≤ b ∧ b ≤ 57

theorem digit_ok {d : Nat} (h : d < 10) : IsDigit (UInt8.ofNat (48 + d)) ∧ (UInt8.ofNat (48 + d)).toNat - 48 = d := by
  unfold IsDigit
  have : d = 0 ∨ d = 1 ∨ d = 2 ∨ d = 3 ∨ d = 4 ∨ d = 5 ∨ d = 6 ∨ d = 7 ∨ d = 8 ∨ d = 9 := by omega
  rcases this with rfl | rfl | rfl | rfl | rfl | rfl | rfl | rfl | rfl | rfl <;> decide

theorem digitsValue_digit {a d : Nat} (h : d < 10) (bs : List UInt8) :
    digitsValue a (UInt8.ofNat (48 + d) :: bs) = digitsValue (a * 10 + d) bs := by
  obtain ⟨h1, h2⟩ := digit_ok h
  unfold IsDigit at h1
  rw [digitsValue, if_pos h1, h2]

theorem natBytesAux_spec : ∀ (fuel n : Nat) (acc : List UInt8), n < fuel →
    ∃ ds, natBytesAux fuel n acc = ds ++ acc ∧ ds ≠ [] ∧ (∀ b ∈ ds, IsDigit b) ∧
      ∀ rest, digitsValue 0 (ds ++ rest) = digitsValue n rest
  | 0, _, _, h => by omega
  | fuel + 1, n, acc, h => by
    unfold natBytesAux
    by_cases hn : n < 10
    · rw [if_pos hn]
      refine ⟨[UInt8.ofNat (48 + n)], rfl, by simp, ?_, ?_⟩
      · intro b hb
        rw [List.mem_singleton] at hb
        subst hb; exact (digit_ok hn).1
      · intro rest
        rw [List.singleton_append, digitsValue_digit hn]; simp
    · rw [if_neg hn]
      obtain ⟨ds, e, hne, hd, hv⟩ := natBytesAux_spec fuel (n / 10) (UInt8.ofNat (48 + n % 10) :: acc) (by omega)
      have hm : n % 10 < 10 := by omega
      refine ⟨ds ++ [UInt8.ofNat (48 + n % 10)], by rw [e]; simp, by simp, ?_, ?_⟩
      · intro b hb
        rcases List.mem_append.1 hb with hb | hb
        · exact hd b hb
        · rw [List.mem_singleton] at hb
          subst hb; exact (digit_ok hm).1
      · intro rest
        rw [List.append_assoc, hv, List.singleton_append, digitsValue_digit hm]
        congr 1; omega

theorem natBytes_spec (n : Nat) : natBytes n ≠ [] ∧ (∀ b ∈ natBytes n, IsDigit b) ∧
    digitsValue 0 (natBytes n) = some n := by
  obtain ⟨ds, e, hne, hd, hv⟩ := natBytesAux_spec (n + 1) n [] (by omega)
  rw [List.append_nil] at e
  have := hv []
  rw [List.append_nil] at this
  unfold natBytes
  rw [e]
  exact ⟨hne, hd, by rw [this, digitsValue]⟩

theorem parseInt_natBytes {signed : Bool} {lo hi : Int} {n : Nat} (hlo : lo ≤ 0) (hhi : (n : Int) ≤ hi) :
    parseInt signed lo hi (natBytes n) = some (n : Int) := by
  obtain ⟨hne, hd, hv⟩ := natBytes_spec n
  have hb : lo ≤ (n : Int) ∧ (n : Int) ≤ hi := ⟨by omega, hhi⟩
  generalize natBytes n = bs at hne hd hv
  unfold parseInt
  match bs, hne, hd, hv with
  | [b], _, _, hv => simp [hv, hb]
  | b :: c :: rest, _, hd, hv =>
    have h := hd b (by simp)
    unfold IsDigit at h
    have h1 : b ≠ 43 := by rintro rfl; exact absurd h.1 (by decide)
    have h2 : b ≠ 45 := by rintro rfl; exact absurd h.1 (by decide)
    simp [h1, h2, hv, hb]

theorem parseU32_natBytes (n : UInt32) : parseU32 (natBytes n.toNat) = some n := by
  unfold parseU32
  rw [parseInt_natBytes (by omega) (by have := n.toNat_lt; omega)]
  simp

theorem parseUsize_natBytes {n : Nat} (h : n < 2 ^ 64) : parseUsize (natBytes n) = some n := by
  unfold parseUsize
  rw [parseInt_natBytes (by omega) (by omega)]
  simp

theorem parseIsize_natBytes {n : Nat} (h : n < 2 ^ 63) : parseIsize (natBytes n) = some (n : Int) := by
  unfold parseIsize
  rw [parseInt_natBytes (by omega) (by omega)]

theorem parseI32_natBytes {n : Nat} (h : n < 2 ^ 31) : parseI32 (natBytes n) = some (n : Int) := by
  unfold parseI32
  rw [parseInt_natBytes (by omega) (by omega)]

/-! ### Lines -/

/-- Visible ASCII. -/
def Visible (bs : List UInt8) : Prop := ∀ b ∈ bs, 32 < b ∧ b < 128

theorem natBytes_visible (n : Nat) : Visible (natBytes n) := by
  intro b hb
  have := (natBytes_spec n).2.1 b hb
  unfold IsDigit at this
  simp only [UInt8.le_iff_toNat_le, UInt8.lt_iff_toNat_lt] at *
  have e1 : (48 : UInt8).toNat = 48 := rfl
  have e2 : (57 : UInt8).toNat = 57 := rfl
  have e3 : (32 : UInt8).toNat = 32 := rfl
  have e4 : (128 : UInt8).toNat = 128 := rfl
  omega

theorem visible_nil : Visible [] := by intro b hb; simp at hb

theorem Visible.no_space {bs : List UInt8} (h : Visible bs) : (32 : UInt8) ∉ bs := fun hb => absurd (h _ hb).1 (by decide)

/-- A line without line ends, in ASCII. -/
def PlainLine (bs : List UInt8) : Prop := ∀ b ∈ bs, 32 ≤ b ∧ b < 128

theorem Visible.plain {bs : List UInt8} (h : Visible bs) : PlainLine bs :=
  fun b hb => ⟨UInt8.le_of_lt (h b hb).1, (h b hb).2⟩

theorem plain_append {a b : List UInt8} (ha : PlainLine a) (hb : PlainLine b) : PlainLine (a ++ b) := by
  intro x hx
  rcases List.mem_append.1 hx with h | h
  · exact ha x h
  · exact hb x h

theorem plain_space : PlainLine [32] := by
  intro b hb
  rw [List.mem_singleton] at hb
  subst hb; decide

theorem joinSpaces_cons (a b : List UInt8) (l : List (List UInt8)) :
    joinSpaces (a :: b :: l) = a ++ [32] ++ joinSpaces (b :: l) := by
  simp [joinSpaces, List.intercalate]

theorem plain_join : ∀ {l : List (List UInt8)}, (∀ a ∈ l, Visible a) → PlainLine (joinSpaces l)
  | [], _ => by intro b hb; simp [joinSpaces, List.intercalate] at hb
  | [a], h => by
    have : joinSpaces [a] = a := by simp [joinSpaces, List.intercalate]
    rw [this]; exact (h a (by simp)).plain
  | a :: b :: l, h => by
    rw [joinSpaces_cons]
    exact plain_append (plain_append (h a (by simp)).plain plain_space)
      (plain_join (fun c hc => h c (List.mem_cons_of_mem _ hc)))

theorem plain_utf8 : ∀ {bs : List UInt8}, PlainLine bs → utf8Ok bs = true
  | [], _ => by rw [utf8Ok]
  | b :: bs, h => by
    have : b < 0x80 := (h b (by simp)).2
    rw [utf8Ok.eq_def]
    simp only [this, if_true]
    exact plain_utf8 (fun c hc => h c (List.mem_cons_of_mem _ hc))

theorem plain_chomp {bs : List UInt8} (h : PlainLine bs) : chomp bs = bs := by
  unfold chomp
  rw [if_neg]
  intro hl
  exact absurd (h 13 (List.mem_of_getLast? hl)).1 (by decide)

theorem linesFrom_line : ∀ {cur line rest : List UInt8}, PlainLine line →
    linesFrom cur (line ++ 10 :: rest) = chomp (cur ++ line) :: linesFrom [] rest
  | cur, [], rest, _ => by simp [linesFrom]
  | cur, b :: line, rest, h => by
    have hb : b ≠ 10 := by
      rintro rfl
      exact absurd (h 10 (by simp)).1 (by decide)
    rw [List.cons_append, linesFrom, if_neg hb, linesFrom_line (fun c hc => h c (List.mem_cons_of_mem _ hc))]
    simp

theorem lines_line {line rest : List UInt8} (h : PlainLine line) :
    linesFrom [] (line ++ 10 :: rest) = line :: linesFrom [] rest := by
  rw [linesFrom_line h, List.nil_append, plain_chomp h]

theorem lines_flatMap {α : Type} (f : α → List UInt8) : ∀ (l : List α) (rest : List UInt8), (∀ a ∈ l, PlainLine (f a)) →
    linesFrom [] (l.flatMap (fun a => f a ++ [10]) ++ rest) = l.map f ++ linesFrom [] rest
  | [], rest, _ => by simp
  | a :: l, rest, h => by
    have := lines_flatMap f l rest (fun b hb => h b (List.mem_cons_of_mem _ hb))
    rw [List.flatMap_cons, List.append_assoc, List.append_assoc, List.singleton_append, lines_line (h a (by simp)), this]
    rfl

/-! ### Splitting -/

theorem splitOn_join {l : List (List UInt8)} (h : ∀ a ∈ l, Visible a) (hne : l ≠ []) :
    (joinSpaces l).splitOn 32 = l := List.splitOn_intercalate 32 (fun a ha => (h a ha).no_space) hne

theorem splitOnce_two {a b : List UInt8} (ha : Visible a) : splitOnce (a ++ [32] ++ b) = some (a, b) := by
  unfold splitOnce
  rw [if_pos (by simp)]
  have h : ∀ x ∈ a, (x != 32) = true := by
    intro x hx
    rw [bne_iff_ne]
    rintro rfl
    exact ha.no_space hx
  simp only [List.append_assoc, List.singleton_append, List.takeWhile_append_of_pos h, List.dropWhile_append_of_pos h]
  simp

end Polyanya
