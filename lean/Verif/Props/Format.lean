import Verif.Proofs.Format
import Verif.Props.FileExamples
/-
C72: reading text in the format `mesh 2`.
-/

namespace Polyanya

variable {K : Type} [Scalar K]

theorem header_bytes (l : List UInt8) : HeaderLine l ↔ l = [109, 101, 115, 104] ∨ l = [50] := by
  have e1 : "mesh".toUTF8.toList = [109, 101, 115, 104] := by decide +kernel
  have e2 : "2".toUTF8.toList = [50] := by decide +kernel
  unfold HeaderLine
  rw [e1, e2]

theorem read_head_lines [FloatText K] : ∀ (head rest : List (List UInt8)) (s : ReadState K), s.phase = 0 →
    (∀ l ∈ head, HeaderLine l) → (head ++ rest).foldlM readLine s = rest.foldlM readLine s
  | [], _, _, _, _ => rfl
  | l :: head, rest, s, hs, h => by
    have hl := (header_bytes l).1 (h l (by simp))
    have e : readLine s l = .ok s := by
      unfold readLine
      have hu : utf8Ok l = true := by rcases hl with rfl | rfl <;> decide
      rw [hu, if_neg (by simp), if_pos hs, if_pos hl]
    rw [List.cons_append, List.foldlM_cons, e, res_bind_ok, read_head_lines head rest s hs (fun m hm => h m (by simp [hm]))]

theorem counts_not_header {line : List UInt8} {v p : Int} (h : CountsLine line v p) : ¬ HeaderLine line := by
  obtain ⟨ab, h1, -⟩ := countsLine_iff.1 h
  obtain ⟨e, -⟩ := splitOnce_iff.1 (show splitOnce line = some (ab.1, ab.2) from h1)
  rw [header_bytes]
  rintro (rfl | rfl)
  · have : (32 : UInt8) ∈ [109, 101, 115, 104] := by rw [e]; simp
    exact absurd this (by decide)
  · have : (32 : UInt8) ∈ [50] := by rw [e]; simp
    exact absurd this (by decide)

theorem header_plain {l : List UInt8} (h : HeaderLine l) : PlainText l := by
  rcases (header_bytes l).1 h with rfl | rfl <;> (unfold PlainText; decide)

/-- **C72**, what is read: text of header lines, a line with the numbers of vertices and polygons, and more lines, is read
without panic as the file `f` exactly if the announced number of lines, or all if there are less, are lines of the vertices of
`f` in this order, the other lines are lines of the polygons of `f` in this order, and they are not more than announced. -/
theorem C72_reading [FloatText K] {head body : List (List UInt8)} {counts bytes : List UInt8} {v p : Int}
    (ht : TextOf (head ++ counts :: body) bytes) (hh : ∀ l ∈ head, HeaderLine l)
    (hp : ∀ l ∈ counts :: body, PlainText l) (hc : CountsLine counts v p) (f : PolyanyaFile K) :
    PolyanyaFile.fromBytes bytes = .ok f ↔
      List.Forall₂ VertexLine (body.take v.toNat) f.vertices ∧
      List.Forall₂ PolygonLine (body.drop v.toNat) f.polygons ∧ (body.drop v.toNat).length ≤ p.toNat := by
  have hl : linesFrom [] bytes = head ++ counts :: body := lines_of_text ht (by
    intro l hl
    rcases List.mem_append.1 hl with h | h
    · exact header_plain (hh l h)
    · exact hp l h)
  obtain ⟨ab, h1, h2, h3⟩ := countsLine_iff.1 hc
  have hnh := counts_not_header hc
  rw [header_bytes] at hnh
  have e : ∀ s : ReadState K, s.phase = 0 → readLine s counts = .ok { s with nbVertices := v, nbPolygons := p, phase := 1 } := by
    intro s hs
    unfold readLine
    rw [plainText_utf8 (hp counts (by simp)), if_neg (by simp), if_pos hs, if_neg hnh, h1, unwrap_some, res_bind_ok, h2,
      unwrap_some, res_bind_ok, h3, unwrap_some, res_bind_ok]
  have key := read_body_iff body (ReadState.mk (PolyanyaFile.mk ([] : List (Vertex K)) []) v p 1)
    (fun l hl => hp l (List.mem_cons_of_mem _ hl)) rfl rfl f
  simp only [List.nil_append] at key
  unfold PolyanyaFile.fromBytes
  rw [hl, read_head_lines head _ _ rfl hh, List.foldlM_cons, e _ rfl, res_bind_ok]
  constructor
  · intro h
    obtain ⟨s, hs, e⟩ := bind_eq_ok.1 h
    obtain ⟨vs, i1, i2, i3, i4⟩ := key.1 ⟨s, hs, by simpa using e⟩
    exact ⟨by rw [i1]; exact i2, i3, i4⟩
  · rintro ⟨i2, i3, i4⟩
    obtain ⟨s, hs, e⟩ := key.2 ⟨f.vertices, rfl, i2, i3, i4⟩
    exact bind_eq_ok.2 ⟨s, hs, by rw [e]⟩

/-- **C72**: if the first line that is not a header line does not announce the numbers, the text is not read. -/
theorem C72_no_counts [FloatText K] {head body : List (List UInt8)} {line bytes : List UInt8}
    (ht : TextOf (head ++ line :: body) bytes) (hh : ∀ l ∈ head, HeaderLine l)
    (hp : ∀ l ∈ line :: body, PlainText l) (hl : ¬ HeaderLine line) (hc : ¬ ∃ v p, CountsLine line v p) :
    ¬ ∃ f : PolyanyaFile K, PolyanyaFile.fromBytes bytes = .ok f := by
  have hl' : linesFrom [] bytes = head ++ line :: body := lines_of_text ht (by
    intro l hl
    rcases List.mem_append.1 hl with h | h
    · exact header_plain (hh l h)
    · exact hp l h)
  rintro ⟨f, hf⟩
  unfold PolyanyaFile.fromBytes at hf
  rw [hl', read_head_lines head _ _ rfl hh, List.foldlM_cons] at hf
  obtain ⟨s, hs, -⟩ := bind_eq_ok.1 hf
  obtain ⟨s1, h1, -⟩ := bind_eq_ok.1 hs
  unfold readLine at h1
  rw [plainText_utf8 (hp line (by simp)), if_neg (by simp), if_pos rfl, if_neg (by rw [← header_bytes]; exact hl)] at h1
  obtain ⟨ab, e1, h1⟩ := bind_eq_ok.1 h1
  obtain ⟨v, e2, h1⟩ := bind_eq_ok.1 h1
  obtain ⟨p, e3, h1⟩ := bind_eq_ok.1 h1
  exact hc ⟨v, p, countsLine_iff.2 ⟨ab, unwrap_ok_iff.1 e1, unwrap_ok_iff.1 e2, unwrap_ok_iff.1 e3⟩⟩

/-! ### Documents -/

theorem gap_word : "-1".toUTF8.toList = [45, 49] := by decide +kernel

theorem gap_integer : IntegerWord [45, 49] (-1) := integerWord_neg.2 ⟨1, ⟨by simp, by decide, by decide⟩, rfl⟩

theorem indexOrGap_neighbour {w : List UInt8} {o : Option UInt32} (h : IndexOrGap w o) : NeighbourWord w (o.getD u32Max) := by
  cases o with
  | some i => exact .inl h
  | none =>
    refine .inr ⟨?_, rfl⟩
    rw [show w = [45, 49] from gap_word ▸ h]
    rintro ⟨n, hn, -⟩
    rw [naturalWord_ne (by decide)] at hn
    exact absurd rfl (digit_ne (numeral_digit hn)).2.1

/-- The integer that stands for the neighbour. -/
def gapInt (o : Option UInt32) : Int := (o.map (fun i => (i.toNat : Int))).getD (-1)

theorem indexOrGap_integer {w : List UInt8} {o : Option UInt32} (h : IndexOrGap w o) : IntegerWord w (gapInt o) := by
  cases o with
  | some i => exact .inl ⟨_, h, rfl⟩
  | none =>
    rw [show w = [45, 49] from gap_word ▸ h]
    exact gap_integer

theorem gapInt_range (o : Option UInt32) : -2 ^ 63 ≤ gapInt o ∧ gapInt o < 2 ^ 63 := by
  cases o with
  | some i =>
    have := i.toNat_lt
    simp only [gapInt, Option.map_some, Option.getD_some]
    omega
  | none => simp [gapInt]

theorem gapInt_ne (o : Option UInt32) : gapInt o ≠ -1 ↔ o.isSome = true := by
  cases o with
  | some i => simp [gapInt]
  | none => simp [gapInt]

/-- **C72**: every text in the documented format is read: the vertices in their order, with their coordinates and neighbours,
and as corners exactly those with a gap around them; the polygons in their order with their corners, one-way exactly those with
at most one neighbour. -/
theorem C72_document [FloatText K] {bytes : List UInt8} {vs : List (DocVertex K)} {ps : List DocPolygon}
    (h : DocumentOf bytes vs ps) (hmax : ∀ d ∈ vs, some u32Max ∉ d.neighbours) :
    ∃ f, PolyanyaFile.fromBytes bytes = .ok f ∧
      List.Forall₂ (fun d v => ReadsVertex d v ∧ (v.isCorner = true ↔ none ∈ d.neighbours)) vs f.vertices ∧
      List.Forall₂ ReadsPolygon ps f.polygons := by
  obtain ⟨counts, vls, pls, ht, hp, hc, hv, hpl⟩ := h
  let f : PolyanyaFile K :=
    { vertices := vs.map (fun d => Vertex.new ⟨d.x, d.y⟩ (d.neighbours.map (fun n => n.getD u32Max)))
      polygons := ps.map (fun d => ⟨d.corners, decide (d.corners ≠ [] ∧ (d.sides.filter Option.isSome).length ≤ 1)⟩) }
  have hlen := hv.length_eq
  refine ⟨f, (C72_reading (head := ["mesh".toUTF8.toList, "2".toUTF8.toList]) ht ?_ hp hc f).2 ⟨?_, ?_, ?_⟩, ?_, ?_⟩
  · intro l hl
    rcases List.mem_cons.1 hl with rfl | hl
    · exact .inl rfl
    · rw [List.mem_singleton] at hl
      exact .inr hl
  · rw [Int.toNat_natCast, ← hlen, List.take_left' rfl]
    show List.Forall₂ VertexLine vls (vs.map _)
    rw [List.forall₂_map_right_iff]
    refine hv.imp ?_
    rintro l d ⟨h1, h2, n, ws, h3, h4, h5⟩
    refine ⟨_, _, n :: ws, h3, h1, h2, ?_, ?_⟩
    · simp only [List.drop_succ_cons, List.drop_zero]
      show List.Forall₂ NeighbourWord ws (d.neighbours.map _)
      rw [List.forall₂_map_right_iff]
      exact h5.imp (fun w o h => indexOrGap_neighbour h)
    · simp [Vertex.new]
  · rw [Int.toNat_natCast, ← hlen, List.drop_left' rfl]
    show List.Forall₂ PolygonLine pls (ps.map _)
    rw [List.forall₂_map_right_iff]
    refine hpl.imp ?_
    rintro l d ⟨h1, h2, n, cs, ss, h3, h4, h5, h6⟩
    refine ⟨n, cs, ss, d.corners.map (fun i => (i.toNat : Int)), d.sides.map gapInt, h3, by rw [h5.length_eq]; exact h4,
      by rw [h5.length_eq]; exact h2, ?_, ?_, ?_, ?_, ?_⟩
    · rw [List.forall₂_map_right_iff]
      exact h5.imp (fun w i h => indexOrGap_integer h)
    · rw [List.forall₂_map_right_iff]
      exact h6.imp (fun w i h => indexOrGap_integer h)
    · intro z hz
      rcases List.mem_append.1 hz with hz | hz
      · obtain ⟨i, -, rfl⟩ := List.mem_map.1 hz
        exact gapInt_range (some i)
      · obtain ⟨o, -, rfl⟩ := List.mem_map.1 hz
        exact gapInt_range o
    · rw [List.map_map]
      conv_lhs => rw [← List.map_id d.corners]
      apply List.map_congr_left
      intro i _
      exact (C30_corner i).symm
    · have e : ((d.sides.map gapInt).filter (· ≠ -1)).length = (d.sides.filter Option.isSome).length := by
        rw [List.filter_map, List.length_map]
        congr 2
        funext o
        rw [Bool.eq_iff_iff]
        simpa using gapInt_ne o
      rw [e, decide_eq_true_iff]
      have : d.sides.map gapInt ≠ [] ↔ d.corners ≠ [] := by
        rw [← List.length_pos_iff, ← List.length_pos_iff, List.length_map, h1]
      rw [this]
  · rw [Int.toNat_natCast, Int.toNat_natCast, ← hlen, List.drop_left' rfl, hpl.length_eq]
  · show List.Forall₂ _ vs (vs.map _)
    rw [List.forall₂_map_right_iff, List.forall₂_same]
    intro d hd
    refine ⟨⟨rfl, rfl⟩, ?_⟩
    have := hmax d hd
    simp only [Vertex.new, List.contains_iff_mem, List.mem_map]
    constructor
    · rintro ⟨o, ho, e⟩
      cases o with
      | none => exact ho
      | some i =>
        rw [Option.getD_some] at e
        subst e
        exact absurd ho this
    · intro h
      exact ⟨none, h, rfl⟩
  · show List.Forall₂ _ ps (ps.map _)
    rw [List.forall₂_map_right_iff, List.forall₂_same]
    exact fun d _ => ⟨rfl, by simp⟩

/-! ### Spaces and empty lines -/

theorem words_trailing {line : List UInt8} {ws : List (List UInt8)} (h : WordsOf line ws) :
    WordsOf (line ++ [32]) (ws ++ [[]]) := by
  obtain ⟨h1, h2, rfl⟩ := h
  refine ⟨by simp, ?_, ?_⟩
  · intro w hw
    rcases List.mem_append.1 hw with hw | hw
    · exact h2 w hw
    · rw [List.mem_singleton] at hw
      subst hw
      simp
  · clear h2
    induction ws with
    | nil => exact absurd rfl h1
    | cons a ws ih =>
      cases ws with
      | nil => simp [List.intercalate]
      | cons b ws =>
        have := ih (by simp)
        have e : ∀ (x y : List UInt8) (l : List (List UInt8)),
            List.intercalate [32] (x :: y :: l) = x ++ [32] ++ List.intercalate [32] (y :: l) := joinSpaces_cons
        rw [e, List.cons_append, List.cons_append, e, List.append_assoc, this]
        rfl

/-- **C72** needs the lines as they are: a space at the end of the line of a vertex is read as one more gap, and makes the vertex
a corner, although the format says that white space does not matter. -/
theorem C72_trailing_space [FloatText K] {line : List UInt8} {ws : List (List UInt8)} {v : Vertex K} (hw : WordsOf line ws)
    (h3 : 3 ≤ ws.length) (h : VertexLine (line ++ [32]) v) : v.isCorner = true := by
  obtain ⟨xs, ys, rest, h1, -, -, h2, h4⟩ := h
  have e := wordsOf_iff.1 h1
  rw [wordsOf_iff.1 (words_trailing hw)] at e
  obtain ⟨a, b, c, ws, rfl⟩ : ∃ a b c ws', ws = a :: b :: c :: ws' := by
    match ws, h3 with
    | a :: b :: c :: ws, _ => exact ⟨a, b, c, ws, rfl⟩
  simp only [List.cons_append, List.cons.injEq] at e
  obtain ⟨-, -, rfl⟩ := e
  rw [h4]
  simp only [List.drop_succ_cons, List.drop_zero] at h2
  have hmem : [] ∈ ws ++ [[]] := by simp
  obtain ⟨i, hi, hi0⟩ := List.getElem_of_mem hmem
  have hi' : i < v.polygons.length := by rw [← h2.length_eq]; exact hi
  have := h2.get (i := i) hi hi'
  simp only [List.get_eq_getElem, hi0] at this
  rcases this with h7 | ⟨-, h7⟩
  · exact absurd h7 not_naturalWord_nil
  · rw [← h7]
    exact List.getElem_mem _

/-- A space at the end of the line of a polygon makes it unreadable. -/
theorem C72_trailing_space_polygon {line : List UInt8} {p : Polygon} : ¬ PolygonLine (line ++ [32]) p := by
  rintro ⟨n, corners, sides, cs, ss, h1, -, -, h2, h3, -⟩
  have e := wordsOf_iff.1 h1
  have hw : WordsOf line (line.splitOn 32) := wordsOf_iff.2 rfl
  rw [wordsOf_iff.1 (words_trailing hw)] at e
  have hne := hw.1
  have hall : List.Forall₂ IntegerWord (corners ++ sides) (cs ++ ss) := List.rel_append h2 h3
  have hmem : [] ∈ corners ++ sides := by
    obtain ⟨a, l, e2⟩ := List.exists_cons_of_ne_nil hne
    rw [e2, List.cons_append, List.cons.injEq] at e
    rw [← e.2]
    simp
  obtain ⟨i, hi, hi0⟩ := List.getElem_of_mem hmem
  have := hall.get (i := i) hi (by rw [← hall.length_eq]; exact hi)
  simp only [List.get_eq_getElem, hi0] at this
  rcases this with ⟨n, h, -⟩ | ⟨d, n, h, -⟩
  · exact not_naturalWord_nil h
  · cases h

/-- An empty line after the numbers makes a text unreadable, at its end too. -/
theorem C72_empty_line [FloatText K] {head body : List (List UInt8)} {counts bytes : List UInt8} {v p : Int}
    (ht : TextOf (head ++ counts :: body) bytes) (hh : ∀ l ∈ head, HeaderLine l)
    (hp : ∀ l ∈ counts :: body, PlainText l) (hc : CountsLine counts v p) (he : [] ∈ body) :
    ¬ ∃ f : PolyanyaFile K, PolyanyaFile.fromBytes bytes = .ok f := by
  rintro ⟨f, hf⟩
  obtain ⟨h1, h2, -⟩ := (C72_reading ht hh hp hc f).1 hf
  have hw : ([] : List UInt8).splitOn 32 = [[]] := rfl
  rw [← List.take_append_drop v.toNat body] at he
  rcases List.mem_append.1 he with he | he
  · obtain ⟨i, hi, hi0⟩ := List.getElem_of_mem he
    have := h1.get (i := i) hi (by rw [← h1.length_eq]; exact hi)
    simp only [List.get_eq_getElem, hi0] at this
    obtain ⟨xs, ys, rest, h, -⟩ := this
    rw [wordsOf_iff, hw] at h
    simp at h
  · obtain ⟨i, hi, hi0⟩ := List.getElem_of_mem he
    have := h2.get (i := i) hi (by rw [← h2.length_eq]; exact hi)
    simp only [List.get_eq_getElem, hi0] at this
    obtain ⟨n, cs, ss, -, -, h, hn, -⟩ := this
    rw [wordsOf_iff, hw, List.cons.injEq] at h
    rw [← h.1] at hn
    exact not_naturalWord_nil hn

/-! ### The example of `format.txt` -/

/-- The example, with six decimals. -/
def docText : List UInt8 := "mesh
2
4 2
0.000000 0.000000 2 0 -1
1.500000 0.000000 3 0 1 -1
1.500000 1.500000 2 1 -1
0.000000 1.500000 3 -1 1 0
3 0 1 3 -1 -1 1
3 1 2 3 0 -1 -1
".toUTF8.toList

def docVertices : List (DocVertex Rat) :=
  [⟨0, 0, "0.000000".toUTF8.toList, "0.000000".toUTF8.toList, [some 0, none]⟩,
    ⟨3 / 2, 0, "1.500000".toUTF8.toList, "0.000000".toUTF8.toList, [some 0, some 1, none]⟩,
    ⟨3 / 2, 3 / 2, "1.500000".toUTF8.toList, "1.500000".toUTF8.toList, [some 1, none]⟩,
    ⟨0, 3 / 2, "0.000000".toUTF8.toList, "1.500000".toUTF8.toList, [none, some 1, some 0]⟩]

def docPolygons : List DocPolygon := [⟨[0, 1, 3], [none, none, some 1]⟩, ⟨[1, 2, 3], [some 0, none, none]⟩]

theorem textOf_lines : ∀ (ls : List (List UInt8)), TextOf ls (ls.flatMap (fun l => l ++ [10]))
  | [] => .nil
  | l :: ls => by
    have := TextOf.lf l (textOf_lines ls)
    simpa using this

theorem digitWord (b : UInt8) (n : Nat) (h1 : 48 ≤ b ∧ b ≤ 57) (h2 : n = b.toNat - 48) : NaturalWord [b] n := by
  refine .inl ⟨by simp, ?_, by simpa using h2⟩
  intro c hc
  rw [List.mem_singleton] at hc
  subst hc
  exact h1

/-- **C72** applies to the example of `format.txt`. -/
theorem C72_example : DocumentOf docText docVertices docPolygons ∧ ∀ d ∈ docVertices, some u32Max ∉ d.neighbours := by
  refine ⟨⟨"4 2".toUTF8.toList,
    ["0.000000 0.000000 2 0 -1".toUTF8.toList, "1.500000 0.000000 3 0 1 -1".toUTF8.toList,
      "1.500000 1.500000 2 1 -1".toUTF8.toList, "0.000000 1.500000 3 -1 1 0".toUTF8.toList],
    ["3 0 1 3 -1 -1 1".toUTF8.toList, "3 1 2 3 0 -1 -1".toUTF8.toList], ?_, ?_, ?_, ?_, ?_⟩, by decide +kernel⟩
  · have e : docText = (["mesh".toUTF8.toList, "2".toUTF8.toList, "4 2".toUTF8.toList, "0.000000 0.000000 2 0 -1".toUTF8.toList, "1.500000 0.000000 3 0 1 -1".toUTF8.toList,
      "1.500000 1.500000 2 1 -1".toUTF8.toList, "0.000000 1.500000 3 -1 1 0".toUTF8.toList,
      "3 0 1 3 -1 -1 1".toUTF8.toList, "3 1 2 3 0 -1 -1".toUTF8.toList]).flatMap (fun l => l ++ [10]) := by
      decide +kernel
    rw [e]
    exact textOf_lines _
  · unfold PlainText
    decide +kernel
  · refine ⟨[52], [50], wordsOf_iff.2 (by decide +kernel), .inl ⟨4, digitWord _ _ (by decide) (by decide), rfl⟩,
      .inl ⟨2, digitWord _ _ (by decide) (by decide), rfl⟩, ?_⟩
    decide +kernel
  · refine .cons ⟨by decide +kernel, by decide +kernel, [50], [[48], [45, 49]], wordsOf_iff.2 (by decide +kernel), ?_, ?_⟩
      (.cons ⟨by decide +kernel, by decide +kernel, [51], [[48], [49], [45, 49]], wordsOf_iff.2 (by decide +kernel), ?_, ?_⟩
      (.cons ⟨by decide +kernel, by decide +kernel, [50], [[49], [45, 49]], wordsOf_iff.2 (by decide +kernel), ?_, ?_⟩
      (.cons ⟨by decide +kernel, by decide +kernel, [51], [[45, 49], [49], [48]], wordsOf_iff.2 (by decide +kernel), ?_, ?_⟩
      .nil)))
    · exact digitWord _ _ (by decide) (by decide)
    · exact .cons (digitWord _ _ (by decide) (by decide)) (.cons gap_word.symm .nil)
    · exact digitWord _ _ (by decide) (by decide)
    · exact .cons (digitWord _ _ (by decide) (by decide)) (.cons (digitWord _ _ (by decide) (by decide)) (.cons gap_word.symm .nil))
    · exact digitWord _ _ (by decide) (by decide)
    · exact .cons (digitWord _ _ (by decide) (by decide)) (.cons gap_word.symm .nil)
    · exact digitWord _ _ (by decide) (by decide)
    · exact .cons gap_word.symm (.cons (digitWord _ _ (by decide) (by decide)) (.cons (digitWord _ _ (by decide) (by decide)) .nil))
  · refine .cons ⟨by decide, by decide, [51], [[48], [49], [51]], [[45, 49], [45, 49], [49]], wordsOf_iff.2 (by decide +kernel), ?_, ?_, ?_⟩
      (.cons ⟨by decide, by decide, [51], [[49], [50], [51]], [[48], [45, 49], [45, 49]], wordsOf_iff.2 (by decide +kernel), ?_, ?_, ?_⟩ .nil)
    · exact digitWord _ _ (by decide) (by decide)
    · exact .cons (digitWord _ _ (by decide) (by decide)) (.cons (digitWord _ _ (by decide) (by decide))
        (.cons (digitWord _ _ (by decide) (by decide)) .nil))
    · exact .cons gap_word.symm (.cons gap_word.symm (.cons (digitWord _ _ (by decide) (by decide)) .nil))
    · exact digitWord _ _ (by decide) (by decide)
    · exact .cons (digitWord _ _ (by decide) (by decide)) (.cons (digitWord _ _ (by decide) (by decide))
        (.cons (digitWord _ _ (by decide) (by decide)) .nil))
    · exact .cons (digitWord _ _ (by decide) (by decide)) (.cons gap_word.symm (.cons gap_word.symm .nil))

end Polyanya
