import Verif.Spec.Format
import Verif.Proofs.File
import Verif.Props.File
import Mathlib.Data.List.Forall2
import Mathlib.Data.List.TakeWhile
/-
The reader of the format `mesh 2` against the format (C72).
-/

namespace Polyanya

variable {K : Type} [Scalar K]

/-! ### Lines -/

theorem linesFrom_crlf : ∀ {cur line rest : List UInt8}, PlainText line →
    linesFrom cur (line ++ 13 :: 10 :: rest) = chomp (cur ++ line ++ [13]) :: linesFrom [] rest
  | cur, [], rest, _ => by simp [linesFrom]
  | cur, b :: line, rest, h => by
    have hb : b ≠ 10 := by
      rintro rfl
      exact absurd (h 10 (by simp)).1 (by decide)
    rw [List.cons_append, linesFrom, if_neg hb, linesFrom_crlf (fun c hc => h c (List.mem_cons_of_mem _ hc))]
    simp

theorem chomp_cr (l : List UInt8) : chomp (l ++ [13]) = l := by
  unfold chomp
  rw [if_pos (by simp)]
  simp

theorem linesFrom_last : ∀ {cur line : List UInt8}, PlainText line →
    linesFrom cur line = if cur ++ line = [] then [] else [cur ++ line]
  | cur, [], _ => by simp [linesFrom]
  | cur, b :: line, h => by
    have hb : b ≠ 10 := by
      rintro rfl
      exact absurd (h 10 (by simp)).1 (by decide)
    rw [linesFrom, if_neg hb, linesFrom_last (fun c hc => h c (List.mem_cons_of_mem _ hc))]
    simp

theorem lines_of_text {lines : List (List UInt8)} {bytes : List UInt8} (h : TextOf lines bytes)
    (hp : ∀ l ∈ lines, PlainText l) : linesFrom [] bytes = lines := by
  induction h with
  | nil => rfl
  | last l hl => rw [linesFrom_last (hp l (by simp)), List.nil_append, if_neg hl]
  | lf l _ ih => rw [lines_line (hp l (by simp)), ih (fun m hm => hp m (List.mem_cons_of_mem _ hm))]
  | crlf l _ ih =>
    rw [linesFrom_crlf (hp l (by simp)), ih (fun m hm => hp m (List.mem_cons_of_mem _ hm)), List.nil_append, chomp_cr]

theorem splitOnPPrepend_no_sep (p : UInt8 → Bool) (xs acc : List UInt8) (hacc : ∀ b ∈ acc, p b = false) :
    ∀ w ∈ List.splitOnPPrepend p xs acc, ∀ b ∈ w, p b = false := by
  induction xs generalizing acc with
  | nil =>
    intro w hw b hb
    rw [List.splitOnPPrepend_nil, List.mem_singleton] at hw
    subst hw
    exact hacc b (List.mem_reverse.1 hb)
  | cons x xs ih =>
    intro w hw b hb
    rw [List.splitOnPPrepend_cons_eq_if] at hw
    split at hw
    · rcases List.mem_cons.1 hw with rfl | hw
      · exact hacc b (List.mem_reverse.1 hb)
      · exact ih [] (by simp) w hw b hb
    · rename_i hx
      refine ih (x :: acc) ?_ w hw b hb
      intro c hc
      rcases List.mem_cons.1 hc with rfl | hc
      · simpa using hx
      · exact hacc c hc

theorem wordsOf_iff {line : List UInt8} {ws : List (List UInt8)} : WordsOf line ws ↔ line.splitOn 32 = ws := by
  constructor
  · rintro ⟨h1, h2, rfl⟩
    exact List.splitOn_intercalate 32 h2 h1
  · rintro rfl
    refine ⟨List.splitOn_ne_nil _ _, ?_, (List.intercalate_splitOn (xs := line) 32).symm⟩
    intro w hw h
    have := splitOnPPrepend_no_sep (· == 32) line [] (by simp) w hw 32 h
    simp at this

/-! ### Numbers -/

theorem digitsValue_eq (w : List UInt8) : ∀ (a n : Nat), digitsValue a w = some n ↔
    (∀ b ∈ w, 48 ≤ b ∧ b ≤ 57) ∧ n = w.foldl (fun a b => 10 * a + (b.toNat - 48)) a := by
  induction w with
  | nil => intro a n; simp [digitsValue, eq_comm]
  | cons b w ih =>
    intro a n
    rw [digitsValue]
    by_cases h : 48 ≤ b ∧ b ≤ 57
    · rw [if_pos h, ih]
      simp only [List.mem_cons, forall_eq_or_imp, List.foldl_cons, h, and_self, true_and, Nat.mul_comm]
    · rw [if_neg h]
      simp only [List.mem_cons, forall_eq_or_imp, h, false_and, reduceCtorEq]

theorem digitsValue_numeral {w : List UInt8} (hw : w ≠ []) (n : Nat) : digitsValue 0 w = some n ↔ Numeral w n := by
  rw [digitsValue_eq]
  simp [Numeral, hw]

theorem numeral_digit {b : UInt8} {w : List UInt8} {n : Nat} (h : Numeral (b :: w) n) : 48 ≤ b ∧ b ≤ 57 :=
  h.2.1 b (by simp)

theorem digit_ne {b : UInt8} (h : 48 ≤ b ∧ b ≤ 57) : b ≠ 43 ∧ b ≠ 45 ∧ b ≠ 32 := by
  refine ⟨?_, ?_, ?_⟩ <;> (rintro rfl; exact absurd h.1 (by decide))

theorem integerWord_neg {d : List UInt8} {z : Int} : IntegerWord (45 :: d) z ↔ ∃ n, Numeral d n ∧ z = -(n : Int) := by
  constructor
  · rintro (⟨n, (h | ⟨e, h, -⟩), -⟩ | ⟨e, n, h, h2⟩)
    · exact absurd rfl (digit_ne (numeral_digit h)).2.1
    · simp at h
    · rw [List.cons.injEq] at h
      obtain ⟨-, rfl⟩ := h
      exact ⟨n, h2⟩
  · rintro ⟨n, h⟩
    exact .inr ⟨d, n, rfl, h⟩

theorem naturalWord_plus {d : List UInt8} {n : Nat} : NaturalWord (43 :: d) n ↔ Numeral d n := by
  constructor
  · rintro (h | ⟨e, h, h2⟩)
    · exact absurd rfl (digit_ne (numeral_digit h)).1
    · rw [List.cons.injEq] at h
      obtain ⟨-, rfl⟩ := h
      exact h2
  · exact fun h => .inr ⟨d, rfl, h⟩

theorem naturalWord_ne {b : UInt8} {d : List UInt8} {n : Nat} (hb : b ≠ 43) : NaturalWord (b :: d) n ↔ Numeral (b :: d) n := by
  constructor
  · rintro (h | ⟨e, h, h2⟩)
    · exact h
    · rw [List.cons.injEq] at h
      exact absurd h.1 hb
  · exact .inl

theorem integerWord_ne {b : UInt8} {d : List UInt8} {z : Int} (hb : b ≠ 45) :
    IntegerWord (b :: d) z ↔ ∃ n : Nat, NaturalWord (b :: d) n ∧ z = n := by
  constructor
  · rintro (h | ⟨e, n, h, h2⟩)
    · exact h
    · rw [List.cons.injEq] at h
      exact absurd h.1 hb
  · exact .inl

theorem not_numeral_nil {n : Nat} : ¬ Numeral [] n := fun h => h.1 rfl

theorem not_naturalWord_nil {n : Nat} : ¬ NaturalWord [] n := by
  rintro (h | ⟨d, h, -⟩)
  · exact h.1 rfl
  · cases h

/-- The value of the word, as `parseInt` reads it. -/
def signedValue (signed : Bool) (bs : List UInt8) : Option Int :=
  match bs with
    | [] => none
    | [b] => (digitsValue 0 [b]).map Int.ofNat
    | b :: c :: rest =>
      if b = 43 then (digitsValue 0 (c :: rest)).map Int.ofNat
      else if b = 45 ∧ signed then (digitsValue 0 (c :: rest)).map (fun n : Nat => -(n : Int))
      else (digitsValue 0 (b :: c :: rest)).map Int.ofNat

theorem parseInt_eq (signed : Bool) (lo hi : Int) (bs : List UInt8) (z : Int) :
    parseInt signed lo hi bs = some z ↔ signedValue signed bs = some z ∧ lo ≤ z ∧ z ≤ hi := by
  have e : parseInt signed lo hi bs = (signedValue signed bs).bind (fun n => if lo ≤ n ∧ n ≤ hi then some n else none) := by
    match bs with
    | [] => rfl
    | [b] => rfl
    | b :: c :: rest =>
      simp only [parseInt, signedValue]
      by_cases h1 : b = 43
      · rw [if_pos h1, if_pos h1]; rfl
      · rw [if_neg h1, if_neg h1]
        by_cases h2 : b = 45 ∧ signed = true
        · rw [if_pos h2, if_pos h2]
          cases digitsValue 0 (c :: rest) <;> rfl
        · rw [if_neg h2, if_neg h2]; rfl
  rw [e, Option.bind_eq_some_iff]
  constructor
  · rintro ⟨n, h1, h2⟩
    split at h2
    · cases h2
      exact ⟨h1, by assumption⟩
    · cases h2
  · rintro ⟨h1, h2⟩
    exact ⟨z, h1, if_pos h2⟩

theorem map_digits {w : List UInt8} (hw : w ≠ []) (z : Int) :
    (digitsValue 0 w).map Int.ofNat = some z ↔ ∃ n : Nat, Numeral w n ∧ z = n := by
  rw [Option.map_eq_some_iff]
  simp only [digitsValue_numeral hw]
  exact exists_congr fun n => and_congr_right fun _ => ⟨fun h => h.symm, fun h => h.symm⟩

theorem signedValue_false (w : List UInt8) (z : Int) :
    signedValue false w = some z ↔ ∃ n : Nat, NaturalWord w n ∧ z = n := by
  match w with
  | [] => simp [signedValue, not_naturalWord_nil]
  | [b] =>
    rw [signedValue, map_digits (by simp)]
    by_cases hb : b = 43
    · subst hb
      refine exists_congr fun n => and_congr_left fun _ => ?_
      rw [naturalWord_plus]
      exact ⟨fun h => absurd rfl (digit_ne (numeral_digit h)).1, fun h => absurd h not_numeral_nil⟩
    · simp only [naturalWord_ne hb]
  | b :: c :: rest =>
    rw [signedValue]
    by_cases hb : b = 43
    · subst hb
      rw [if_pos rfl, map_digits (by simp)]
      simp only [naturalWord_plus]
    · rw [if_neg hb, if_neg (by simp), map_digits (by simp)]
      simp only [naturalWord_ne hb]

theorem signedValue_true (w : List UInt8) (z : Int) : signedValue true w = some z ↔ IntegerWord w z := by
  match w with
  | [] =>
    simp only [signedValue, reduceCtorEq, false_iff]
    rintro (⟨n, h, -⟩ | ⟨d, n, h, -⟩)
    · exact not_naturalWord_nil h
    · cases h
  | [b] =>
    have e : signedValue true [b] = signedValue false [b] := rfl
    rw [e, signedValue_false]
    by_cases hb : b = 45
    · subst hb
      rw [integerWord_neg]
      constructor
      · rintro ⟨n, h, -⟩
        rw [naturalWord_ne (by decide)] at h
        exact absurd rfl (digit_ne (numeral_digit h)).2.1
      · rintro ⟨n, h, -⟩
        exact absurd h not_numeral_nil
    · rw [integerWord_ne hb]
  | b :: c :: rest =>
    by_cases hb : b = 45
    · subst hb
      rw [signedValue, if_neg (by decide), if_pos (by simp), integerWord_neg, Option.map_eq_some_iff]
      simp only [digitsValue_numeral (show c :: rest ≠ [] by simp)]
      exact exists_congr fun n => and_congr_right fun _ => ⟨fun h => h.symm, fun h => h.symm⟩
    · have e : signedValue true (b :: c :: rest) = signedValue false (b :: c :: rest) := by
        simp [signedValue, hb]
      rw [e, signedValue_false, integerWord_ne hb]

theorem parseI32_iff {w : List UInt8} {z : Int} : parseI32 w = some z ↔ IntegerWord w z ∧ -2 ^ 31 ≤ z ∧ z < 2 ^ 31 := by
  unfold parseI32
  rw [parseInt_eq, signedValue_true]
  constructor <;> rintro ⟨h1, h2, h3⟩ <;> exact ⟨h1, h2, by omega⟩

theorem parseIsize_iff {w : List UInt8} {z : Int} : parseIsize w = some z ↔ IntegerWord w z ∧ -2 ^ 63 ≤ z ∧ z < 2 ^ 63 := by
  unfold parseIsize
  rw [parseInt_eq, signedValue_true]
  constructor <;> rintro ⟨h1, h2, h3⟩ <;> exact ⟨h1, h2, by omega⟩

theorem parseUsize_iff {w : List UInt8} {n : Nat} : parseUsize w = some n ↔ NaturalWord w n ∧ n < 2 ^ 64 := by
  unfold parseUsize
  rw [Option.map_eq_some_iff]
  simp only [parseInt_eq, signedValue_false]
  constructor
  · rintro ⟨z, ⟨⟨m, h1, rfl⟩, h2, h3⟩, rfl⟩
    rw [Int.toNat_natCast]
    exact ⟨h1, by omega⟩
  · rintro ⟨h1, h2⟩
    exact ⟨n, ⟨⟨n, h1, rfl⟩, by omega, by omega⟩, by simp⟩

theorem naturalWord_unique {w : List UInt8} {m n : Nat} (h1 : NaturalWord w m) (h2 : NaturalWord w n) : m = n := by
  have a := (signedValue_false w m).2 ⟨m, h1, rfl⟩
  have b := (signedValue_false w n).2 ⟨n, h2, rfl⟩
  rw [a, Option.some.injEq] at b
  exact_mod_cast b

theorem parseU32_iff {w : List UInt8} {n : UInt32} : parseU32 w = some n ↔ NaturalWord w n.toNat := by
  unfold parseU32
  rw [Option.map_eq_some_iff]
  simp only [parseInt_eq, signedValue_false]
  constructor
  · rintro ⟨z, ⟨⟨m, h1, rfl⟩, h2, h3⟩, rfl⟩
    rw [Int.toNat_natCast]
    have : (UInt32.ofNat m).toNat = m := by
      rw [UInt32.toNat_ofNat']
      omega
    rw [this]
    exact h1
  · intro h1
    have := n.toNat_lt
    exact ⟨n.toNat, ⟨⟨n.toNat, h1, rfl⟩, by omega, by omega⟩, by simp⟩

theorem neighbourWord_iff {w : List UInt8} {id : UInt32} : NeighbourWord w id ↔ id = (parseU32 w).getD u32Max := by
  unfold NeighbourWord
  cases h : parseU32 w with
  | some n =>
    have h1 := parseU32_iff.1 h
    rw [Option.getD_some]
    constructor
    · rintro (h2 | ⟨h2, -⟩)
      · exact UInt32.toNat_inj.1 (naturalWord_unique h2 h1)
      · exact absurd ⟨_, h1, n.toNat_lt⟩ h2
    · rintro rfl
      exact .inl h1
  | none =>
    rw [Option.getD_none]
    constructor
    · rintro (h2 | ⟨-, h2⟩)
      · rw [parseU32_iff.2 h2] at h
        cases h
      · exact h2
    · rintro rfl
      refine .inr ⟨?_, rfl⟩
      rintro ⟨n, h1, h2⟩
      have e : (UInt32.ofNat n).toNat = n := by
        rw [UInt32.toNat_ofNat']
        omega
      rw [← e] at h1
      rw [parseU32_iff.2 h1] at h
      cases h

theorem splitOnce_iff {line a b : List UInt8} : splitOnce line = some (a, b) ↔ line = a ++ 32 :: b ∧ (32 : UInt8) ∉ a := by
  unfold splitOnce
  constructor
  · intro h
    split at h
    · rename_i hm
      rw [Option.some.injEq, Prod.mk.injEq] at h
      obtain ⟨rfl, rfl⟩ := h
      constructor
      · conv_lhs => rw [← List.takeWhile_append_dropWhile (p := (· != 32)) (l := line)]
        congr 1
        have hne : line.dropWhile (· != 32) ≠ [] := by
          intro h0
          have := List.dropWhile_eq_nil_iff.1 h0 32 hm
          simp at this
        obtain ⟨c, rest, e⟩ := List.exists_cons_of_ne_nil hne
        have hc := List.head_dropWhile_not (p := (· != (32 : UInt8))) (l := line) hne
        simp only [e, List.head_cons] at hc
        rw [e, List.tail_cons]
        have : c = 32 := by simpa using hc
        rw [this]
      · intro hmem
        have := List.mem_takeWhile_imp hmem
        simp at this
    · cases h
  · rintro ⟨rfl, ha⟩
    rw [if_pos (by simp)]
    have h : ∀ x ∈ a, (x != 32) = true := by
      intro x hx
      rw [bne_iff_ne]
      rintro rfl
      exact ha hx
    rw [List.takeWhile_append_of_pos h, List.dropWhile_append_of_pos h]
    simp

theorem numeral_no_space {w : List UInt8} {n : Nat} (h : Numeral w n) : (32 : UInt8) ∉ w :=
  fun hm => (digit_ne (h.2.1 _ hm)).2.2 rfl

theorem integerWord_no_space {w : List UInt8} {z : Int} (h : IntegerWord w z) : (32 : UInt8) ∉ w := by
  rcases h with ⟨n, (h | ⟨d, rfl, h⟩), -⟩ | ⟨d, n, rfl, h, -⟩
  · exact numeral_no_space h
  · rw [List.mem_cons, not_or]
    exact ⟨by decide, numeral_no_space h⟩
  · rw [List.mem_cons, not_or]
    exact ⟨by decide, numeral_no_space h⟩

theorem countsLine_iff {line : List UInt8} {v p : Int} : CountsLine line v p ↔
    ∃ ab, splitOnce line = some ab ∧ parseI32 ab.1 = some v ∧ parseI32 ab.2 = some p := by
  constructor
  · rintro ⟨a, b, ⟨-, hw, rfl⟩, h1, h2, h3, h4, h5, h6⟩
    refine ⟨(a, b), splitOnce_iff.2 ⟨by simp [List.intercalate], hw a (by simp)⟩, parseI32_iff.2 ⟨h1, h3, h4⟩,
      parseI32_iff.2 ⟨h2, h5, h6⟩⟩
  · rintro ⟨⟨a, b⟩, h1, h2, h3⟩
    obtain ⟨rfl, ha⟩ := splitOnce_iff.1 h1
    obtain ⟨i1, i2, i3⟩ := parseI32_iff.1 h2
    obtain ⟨j1, j2, j3⟩ := parseI32_iff.1 h3
    refine ⟨a, b, ⟨by simp, ?_, by simp [List.intercalate]⟩, i1, j1, i2, i3, j2, j3⟩
    intro w hw
    rcases List.mem_cons.1 hw with rfl | hw
    · exact ha
    · rw [List.mem_singleton] at hw
      subst hw
      exact integerWord_no_space j1

/-! ### Lines -/

theorem unwrap_ok_iff {α : Type} {o : Option α} {a : α} : unwrap o = .ok a ↔ o = some a := by
  cases o <;> simp [unwrap]

theorem forall₂_map_eq {α β : Type} (f : α → β) : ∀ (l : List α) (m : List β),
    List.Forall₂ (fun a b => b = f a) l m ↔ m = l.map f
  | [], m => by simp
  | a :: l, [] => by simp
  | a :: l, b :: m => by simp [forall₂_map_eq f l m]

theorem readVertex_iff [FloatText K] {line : List UInt8} {v : Vertex K} :
    readVertex line = .ok v ↔ VertexLine line v := by
  unfold readVertex VertexLine
  simp only [wordsOf_iff]
  constructor
  · intro h
    split at h
    · rename_i xs ys rest e
      obtain ⟨x, h1, h⟩ := bind_eq_ok.1 h
      obtain ⟨y, h2, h⟩ := bind_eq_ok.1 h
      rw [Except.ok.injEq] at h
      subst h
      refine ⟨xs, ys, rest, e, unwrap_ok_iff.1 h1, unwrap_ok_iff.1 h2, ?_, ?_⟩
      · refine List.Forall₂.imp (fun w id h => neighbourWord_iff.2 h) ((forall₂_map_eq _ _ _).2 ?_)
        rfl
      · simp [Vertex.new]
    · cases h
  · rintro ⟨xs, ys, rest, e, h1, h2, h3, h4⟩
    rw [e]
    simp only [h1, h2, unwrap_some, res_bind_ok]
    have h3 := (forall₂_map_eq _ _ _).1 (h3.imp (fun w id h => neighbourWord_iff.1 h))
    obtain ⟨⟨vx, vy⟩, vp, vc⟩ := v
    simp only at h3 h4
    rw [← h3]
    have : vc = vp.contains u32Max := by
      rw [Bool.eq_iff_iff, h4]
      simp
    rw [this]
    rfl

theorem readPolygon_iff {line : List UInt8} {p : Polygon} : readPolygon line = .ok p ↔ PolygonLine line p := by
  unfold readPolygon PolygonLine
  simp only [wordsOf_iff]
  constructor
  · intro h
    split at h
    · rename_i ns rest e
      obtain ⟨n, h1, h⟩ := bind_eq_ok.1 h
      obtain ⟨data, h2, h⟩ := bind_eq_ok.1 h
      rw [unwrap_ok_iff, parseUsize_iff] at h1
      rw [mapM_ok_iff] at h2
      have hdata : List.Forall₂ (fun w z => IntegerWord w z ∧ -2 ^ 63 ≤ z ∧ z < 2 ^ 63) rest data :=
        h2.imp (fun w z h => parseIsize_iff.1 (unwrap_ok_iff.1 h))
      have hlen := h2.length_eq
      obtain ⟨hu1, hu2⟩ := C30_using n data
      by_cases hn : data.length < n
      · rw [hu1 hn] at h
        cases h
      obtain ⟨q, e1, e2, e3⟩ := hu2 (by omega)
      rw [e1, Except.ok.injEq] at h
      subst h
      have hl : (rest.take n).length = n := by rw [List.length_take]; omega
      have hall : List.Forall₂ IntegerWord rest data := hdata.imp (fun _ _ h => h.1)
      refine ⟨ns, rest.take n, rest.drop n, data.take n, data.drop n, by rw [List.take_append_drop]; exact e,
        by rw [hl]; exact h1.1, by rw [hl]; exact h1.2, List.forall₂_take n hall, List.forall₂_drop n hall, ?_, e2, e3⟩
      intro z hz
      rw [List.take_append_drop] at hz
      obtain ⟨i, hi, rfl⟩ := List.getElem_of_mem hz
      exact (hdata.get (i := i) (by omega) hi).2
    · cases h
  · rintro ⟨n, corners, sides, cs, ss, e, h1, h2, h3, h4, h5, h6, h7⟩
    rw [e]
    have hn : parseUsize n = some corners.length := parseUsize_iff.2 ⟨h1, h2⟩
    have hm : (corners ++ sides).mapM (fun v => unwrap (parseIsize v)) = .ok (cs ++ ss) := by
      rw [mapM_ok_iff]
      have hall : List.Forall₂ IntegerWord (corners ++ sides) (cs ++ ss) := List.rel_append h3 h4
      rw [List.forall₂_iff_get] at hall ⊢
      refine ⟨hall.1, fun i hi hj => ?_⟩
      rw [unwrap_ok_iff, parseIsize_iff]
      exact ⟨hall.2 i hi hj, h5 _ (List.getElem_mem _)⟩
    simp only [hn, hm, unwrap_some, res_bind_ok]
    obtain ⟨q, e1, e2, e3⟩ := (C30_using corners.length (cs ++ ss)).2 (by simp [h3.length_eq])
    rw [e1, Except.ok.injEq]
    rw [h3.length_eq, List.take_left'  rfl] at e2
    rw [h3.length_eq, List.drop_left' rfl] at e3
    obtain ⟨qv, qo⟩ := q
    obtain ⟨pv, po⟩ := p
    simp only at e2 e3 h6 h7
    subst e2
    rw [h6, Polygon.mk.injEq]
    refine ⟨rfl, ?_⟩
    rw [Bool.eq_iff_iff, e3, h7]

/-! ### The loop -/

theorem plainText_utf8 {l : List UInt8} (h : PlainText l) : utf8Ok l = true := plain_utf8 h

theorem read_polygons_iff : ∀ (ls : List (List UInt8)) (s : ReadState K) [FloatText K], (∀ l ∈ ls, PlainText l) →
    (s.phase = 2 ∨ (s.phase = 1 ∧ s.nbVertices ≤ 0)) → ∀ vs ps,
    (∃ s', ls.foldlM readLine s = .ok s' ∧ s'.file.vertices = vs ∧ s'.file.polygons = s.file.polygons ++ ps) ↔
      vs = s.file.vertices ∧ List.Forall₂ PolygonLine ls ps ∧ ls.length ≤ s.nbPolygons.toNat
  | [], s, _, _, _, vs, ps => by
    constructor
    · rintro ⟨s', h, h2, h3⟩
      cases h
      rw [List.self_eq_append_right] at h3
      subst h3
      exact ⟨h2.symm, .nil, by simp⟩
    · rintro ⟨rfl, h, -⟩
      cases h
      exact ⟨s, rfl, rfl, by simp⟩
  | l :: ls, s, _, hp, hph, vs, ps => by
    have hl := hp l (by simp)
    have e : readLine s l = readPhase2 { s with phase := 2 } l := by
      unfold readLine
      rw [plainText_utf8 hl, if_neg (by simp)]
      rcases hph with h | ⟨h, h0⟩
      · rw [if_neg (by omega), if_neg (by omega)]
        obtain ⟨f, a, b, ph⟩ := s
        simp only at h
        subst h
        rfl
      · rw [if_neg (by omega), if_pos h, if_neg (by omega)]
    have ih := fun s' hs' => read_polygons_iff ls (s := s') (fun m hm => hp m (List.mem_cons_of_mem _ hm)) (.inl hs') vs
    have e2 : readPhase2 { s with phase := 2 } l = (if 0 < s.nbPolygons then do
        let p ← readPolygon l
        .ok { s with phase := 2, nbPolygons := s.nbPolygons - 1, file := { s.file with polygons := s.file.polygons ++ [p] } }
      else .error .panic) := rfl
    by_cases hn : 0 < s.nbPolygons
    · constructor
      · rintro ⟨s', h, h2, h3⟩
        rw [List.foldlM_cons, e, e2, if_pos hn] at h
        obtain ⟨s1, h4, h5⟩ := bind_eq_ok.1 h
        obtain ⟨p, h6, h7⟩ := bind_eq_ok.1 h4
        rw [Except.ok.injEq] at h7
        subst h7
        have hex : ∃ ps', s'.file.polygons = (s.file.polygons ++ [p]) ++ ps' := by
          have hb : ∀ (ls : List (List UInt8)) (s s' : ReadState K), s.phase ≠ 0 → ls.foldlM readLine s = .ok s' →
              ∃ ps', s'.file.polygons = s.file.polygons ++ ps' := by
            intro ls
            induction ls with
            | nil => intro s s' _ h; cases h; exact ⟨[], by simp⟩
            | cons l ls ih =>
              intro s s' hs h
              rw [List.foldlM_cons] at h
              obtain ⟨s1, h1, h2⟩ := bind_eq_ok.1 h
              have : s1.phase ≠ 0 ∧ ∃ ps', s1.file.polygons = s.file.polygons ++ ps' := by
                unfold readLine at h1
                split at h1
                · cases h1
                · have h22 : ∀ {t t' : ReadState K} {l : List UInt8}, readPhase2 t l = .ok t' →
                      t'.phase = t.phase ∧ ∃ ps', t'.file.polygons = t.file.polygons ++ ps' := by
                    intro t t' l h
                    unfold readPhase2 at h
                    split at h
                    · obtain ⟨p, -, h⟩ := bind_eq_ok.1 h
                      cases h
                      exact ⟨rfl, [p], rfl⟩
                    · cases h
                  split at h1
                  · split at h1
                    · obtain ⟨v, -, h1⟩ := bind_eq_ok.1 h1
                      cases h1
                      exact ⟨hs, [], by simp⟩
                    · obtain ⟨a, b⟩ := h22 h1
                      exact ⟨by rw [a]; simp, b⟩
                  · obtain ⟨a, b⟩ := h22 h1
                    exact ⟨by rw [a]; exact hs, b⟩
              obtain ⟨h3, ps1, h4⟩ := this
              obtain ⟨ps2, h5⟩ := ih s1 s' h3 h2
              exact ⟨ps1 ++ ps2, by rw [h5, h4]; simp⟩
          exact hb ls _ s' (by simp) h5
        obtain ⟨ps', hps'⟩ := hex
        obtain ⟨i1, i2, i3⟩ := (ih _ rfl ps').1 ⟨s', h5, h2, hps'⟩
        have : ps = p :: ps' := by
          rw [hps', List.append_assoc, List.append_cancel_left_eq] at h3
          exact h3.symm
        subst this
        refine ⟨i1, .cons (readPolygon_iff.1 h6) i2, ?_⟩
        simp only [List.length_cons] at i3 ⊢
        omega
      · rintro ⟨h1, h2, h3⟩
        cases h2 with
        | cons h4 h5 =>
          rename_i p ps
          simp only [List.length_cons] at h3
          obtain ⟨s', i1, i2, i3⟩ := (ih { s with
            phase := 2, nbPolygons := s.nbPolygons - 1, file := { s.file with polygons := s.file.polygons ++ [p] } } rfl ps).2
            ⟨h1, h5, by simp only; omega⟩
          refine ⟨s', ?_, i2, by rw [i3]; simp⟩
          rw [List.foldlM_cons, e, e2, if_pos hn, readPolygon_iff.2 h4, res_bind_ok, res_bind_ok]
          exact i1
    · constructor
      · rintro ⟨s', h, -⟩
        rw [List.foldlM_cons, e, e2, if_neg hn] at h
        cases h
      · rintro ⟨-, -, h⟩
        simp only [List.length_cons] at h
        omega

theorem read_body_iff [FloatText K] : ∀ (ls : List (List UInt8)) (s : ReadState K), (∀ l ∈ ls, PlainText l) →
    s.phase = 1 → s.file.polygons = [] → ∀ f : PolyanyaFile K,
    (∃ s', ls.foldlM readLine s = .ok s' ∧ s'.file = f) ↔ ∃ vs, f.vertices = s.file.vertices ++ vs ∧
      List.Forall₂ VertexLine (ls.take s.nbVertices.toNat) vs ∧
      List.Forall₂ PolygonLine (ls.drop s.nbVertices.toNat) f.polygons ∧
      (ls.drop s.nbVertices.toNat).length ≤ s.nbPolygons.toNat := by
  intro ls
  induction ls with
  | nil =>
    intro s hp hph h0 f
    simp only [List.foldlM_nil, List.take_nil, List.drop_nil, List.forall₂_nil_left_iff, List.length_nil, Nat.zero_le, and_true]
    constructor
    · rintro ⟨s', h, rfl⟩
      cases h
      exact ⟨[], by simp, rfl, h0⟩
    · rintro ⟨vs, h1, rfl, h2⟩
      refine ⟨s, rfl, ?_⟩
      obtain ⟨fv, fp⟩ := f
      obtain ⟨⟨sv, sp⟩, _, _, _⟩ := s
      simp only at h1 h2 h0
      simp [h1, h2, h0]
  | cons l ls ih =>
    intro s hp hph h0 f
    by_cases hn : 0 < s.nbVertices
    · have hl := hp l (by simp)
      have e : readLine s l = (do
          let v ← readVertex l
          .ok { s with nbVertices := s.nbVertices - 1, file := { s.file with vertices := s.file.vertices ++ [v] } }) := by
        unfold readLine
        rw [plainText_utf8 hl, if_neg (by simp), if_neg (by omega), if_pos hph, if_pos hn]
      obtain ⟨k, hk⟩ : ∃ k, s.nbVertices.toNat = k + 1 := ⟨s.nbVertices.toNat - 1, by omega⟩
      have hk' : (s.nbVertices - 1).toNat = k := by omega
      rw [hk]
      simp only [List.foldlM_cons, e, List.take_succ_cons, List.drop_succ_cons]
      have ih' := fun v => ih { s with
        nbVertices := s.nbVertices - 1, file := { s.file with vertices := s.file.vertices ++ [v] } }
        (fun m hm => hp m (List.mem_cons_of_mem _ hm)) hph h0 f
      simp only [hk'] at ih'
      constructor
      · rintro ⟨s', h, h2⟩
        obtain ⟨s1, h4, h5⟩ := bind_eq_ok.1 h
        obtain ⟨v, h6, h7⟩ := bind_eq_ok.1 h4
        rw [Except.ok.injEq] at h7
        subst h7
        obtain ⟨vs, i1, i2, i3, i4⟩ := (ih' v).1 ⟨s', h5, h2⟩
        exact ⟨v :: vs, by rw [i1]; simp, .cons (readVertex_iff.1 h6) i2, i3, i4⟩
      · rintro ⟨vs, i1, i2, i3, i4⟩
        cases i2 with
        | cons h4 h5 =>
          rename_i v vs
          obtain ⟨s', j1, j2⟩ := (ih' v).2 ⟨vs, by rw [i1]; simp, h5, i3, i4⟩
          refine ⟨s', ?_, j2⟩
          rw [readVertex_iff.2 h4, res_bind_ok, res_bind_ok]
          exact j1
    · have hz : s.nbVertices.toNat = 0 := by omega
      rw [hz]
      simp only [List.take_zero, List.drop_zero, List.forall₂_nil_left_iff]
      have key := read_polygons_iff (l :: ls) s hp (.inr ⟨hph, by omega⟩) f.vertices f.polygons
      rw [h0, List.nil_append] at key
      constructor
      · rintro ⟨s', h, rfl⟩
        obtain ⟨i1, i2, i3⟩ := key.1 ⟨s', h, rfl, rfl⟩
        exact ⟨[], by simp [i1], rfl, i2, i3⟩
      · rintro ⟨vs, h1, rfl, h2, h3⟩
        obtain ⟨s', j1, j2, j3⟩ := key.2 ⟨by simpa using h1, h2, h3⟩
        refine ⟨s', j1, ?_⟩
        obtain ⟨⟨fv, fp⟩, _, _, _⟩ := s'
        obtain ⟨fv', fp'⟩ := f
        simp only at j2 j3
        rw [j2, j3]

end Polyanya
