import Verif.Proofs.LocateIff
import Verif.Proofs.Between
import Verif.Proofs.Straight
import Verif.Props.Location
/-
Point location in exact arithmetic: in a mesh of strictly convex polygons, a point that is not a near miss
of the line of an edge is located in a polygon that contains it.
-/

namespace Polyanya

variable {F : Type} [Field F] [LinearOrder F] [Scalar F] [ExactField F] [IsStrictOrderedRing F]

/-- The point is not nearly, but not exactly, on the line of an edge. -/
def Sharp (m : Mesh (Ext F)) (x : Vec2 F) : Prop :=
  ∀ A B, IsEdgeAt m A B → |tri A B x| < 1 / 10000 → tri A B x = 0

/-! ### Finite values -/

omit [IsStrictOrderedRing F] in
/-- A sum is finite only if both terms are. -/
theorem add_fin {p q : Vec2 (Ext F)} {x : Vec2 F} (h : p + q = x.fin) :
    ∃ c o : Vec2 F, p = c.fin ∧ q = o.fin ∧ x = ⟨c.x + o.x, c.y + o.y⟩ := by
  have key : ∀ (a b : Ext F) (z : F), a +. b = Ext.fin z → ∃ c o : F, a = .fin c ∧ b = .fin o ∧ z = c + o := by
    intro a b z hz
    change Ext.add a b = _ at hz
    unfold Ext.add at hz
    split at hz
    · rename_i c o
      refine ⟨c, o, rfl, rfl, ?_⟩
      rw [← ExactField.add]
      exact (Ext.fin.inj hz).symm
    · simp at hz
    · simp at hz
    · split at hz <;> simp at hz
    · simp at hz
    · simp at hz
  cases p with
  | mk px py =>
    cases q with
    | mk qx qy =>
      have h' : (⟨px +. qx, py +. qy⟩ : Vec2 (Ext F)) = ⟨.fin x.x, .fin x.y⟩ := h
      simp only [Vec2.mk.injEq] at h'
      obtain ⟨c, o, rfl, rfl, h1⟩ := key _ _ _ h'.1
      obtain ⟨c', o', rfl, rfl, h2⟩ := key _ _ _ h'.2
      refine ⟨⟨c, c'⟩, ⟨o, o'⟩, rfl, rfl, ?_⟩
      rw [Vec2.ext_iff']
      exact ⟨h1, h2⟩

omit [IsStrictOrderedRing F] in
theorem VertexAt.finite {l : Layer (Ext F)} {i : UInt32} {X : Vec2 F} (h : VertexAt l i X) :
    ∃ v c o, l.vertices[i.toNat]? = some v ∧ v.coords = Vec2.fin c ∧ l.offset = Vec2.fin o
      ∧ X = ⟨c.x + o.x, c.y + o.y⟩ := by
  obtain ⟨v, hv, hx⟩ := h
  obtain ⟨c, o, h1, h2, h3⟩ := add_fin hx
  exact ⟨v, c, o, hv, h1, h2, h3⟩

theorem fin_min (a b : F) : fmin (Ext.fin a) (Ext.fin b) = Ext.fin (min a b) := by
  unfold fmin
  split
  · rename_i h; rw [ext_lt] at h; rw [min_eq_left h.le]
  · rename_i h; rw [ext_lt] at h; rw [min_eq_right (not_lt.1 h)]

theorem fin_max (a b : F) : fmax (Ext.fin a) (Ext.fin b) = Ext.fin (max a b) := by
  unfold fmax
  split
  · rename_i h; rw [ext_lt] at h; rw [max_eq_left h.le]
  · rename_i h; rw [ext_lt] at h; rw [max_eq_right (not_lt.1 h)]

omit [Scalar F] [ExactField F] in
/-- A point of the line of a segment that is in the box of the segment is on the segment. -/
theorem between_of_box {a b p : Vec2 F} (h0 : tri a b p = 0) (x1 : min a.x b.x ≤ p.x)
    (x2 : p.x ≤ max a.x b.x) (y1 : min a.y b.y ≤ p.y) (y2 : p.y ≤ max a.y b.y) : Between a b p := by
  by_cases hab : a = b
  · subst hab
    rw [min_self] at x1 y1
    rw [max_self] at x2 y2
    have : p = a := Vec2.ext_iff'.2 ⟨le_antisymm x2 x1, le_antisymm y2 y1⟩
    rw [this]; exact Between.left _ _
  · obtain ⟨k, rfl⟩ := on_line hab h0
    have key : ∀ u v : F, u ≠ v → min u v ≤ u + k * (v - u) → u + k * (v - u) ≤ max u v → 0 ≤ k ∧ k ≤ 1 := by
      intro u v huv h1 h2
      rcases lt_or_gt_of_ne huv with h | h
      · rw [min_eq_left h.le] at h1
        rw [max_eq_right h.le] at h2
        have hp : 0 < v - u := by linarith
        refine ⟨?_, ?_⟩
        · by_contra hc
          have := mul_neg_of_neg_of_pos (not_le.1 hc) hp
          linarith
        · by_contra hc
          have := mul_lt_mul_of_pos_right (not_le.1 hc) hp
          linarith
      · rw [min_eq_right h.le] at h1
        rw [max_eq_left h.le] at h2
        have hp : 0 < u - v := by linarith
        refine ⟨?_, ?_⟩
        · by_contra hc
          have := mul_neg_of_neg_of_pos (not_le.1 hc) hp
          linarith
        · by_contra hc
          have := mul_lt_mul_of_pos_right (not_le.1 hc) hp
          linarith
    by_cases hx : a.x = b.x
    · have hy : a.y ≠ b.y := fun hy => hab (Vec2.ext_iff'.2 ⟨hx, hy⟩)
      obtain ⟨k0, k1⟩ := key _ _ hy y1 y2
      exact ⟨k, k0, k1, rfl⟩
    · obtain ⟨k0, k1⟩ := key _ _ hx x1 x2
      exact ⟨k, k0, k1, rfl⟩

omit [Scalar F] [ExactField F] in
theorem Between.box {a b p : Vec2 F} (h : Between a b p) : tri a b p = 0 ∧ min a.x b.x ≤ p.x
    ∧ p.x ≤ max a.x b.x ∧ min a.y b.y ≤ p.y ∧ p.y ≤ max a.y b.y := by
  obtain ⟨u, u0, u1, rfl⟩ := h
  have key : ∀ s t : F, min s t ≤ s + u * (t - s) ∧ s + u * (t - s) ≤ max s t := by
    intro s t
    rcases le_total s t with h | h
    · rw [min_eq_left h, max_eq_right h]
      have := mul_nonneg u0 (sub_nonneg.2 h)
      have := mul_le_mul_of_nonneg_right u1 (sub_nonneg.2 h)
      constructor <;> linarith
    · rw [min_eq_right h, max_eq_left h]
      have := mul_nonneg u0 (sub_nonneg.2 h)
      have := mul_le_mul_of_nonneg_right u1 (sub_nonneg.2 h)
      constructor <;> linarith
  refine ⟨by rw [tri_along]; simp, ?_⟩
  exact ⟨(key _ _).1, (key _ _).2, (key _ _).1, (key _ _).2⟩

/-- `on_segment` is exact for a point that is not a near miss. -/
theorem fin_onSegment {a b p : Vec2 F} (h : |tri a b p| < 1 / 10000 → tri a b p = 0) :
    onSegment p.fin (a.fin, b.fin) = true ↔ Between a b p := by
  unfold onSegment inRange
  simp only [Vec2.fin]
  rw [fin_min, fin_max, fin_min, fin_max]
  simp only [Bool.and_eq_true, ext_le, beq_iff_eq]
  have hs := fin_side_edge h
  simp only [Vec2.fin] at hs
  rw [hs]
  constructor
  · rintro ⟨⟨⟨h1, h2⟩, h3, h4⟩, h5⟩
    exact between_of_box h5 h1 h2 h3 h4
  · intro hb
    obtain ⟨h0, h1, h2, h3, h4⟩ := hb.box
    exact ⟨⟨⟨h1, h2⟩, h3, h4⟩, h0⟩

/-! ### Point in polygon -/

/-- The edge of the list is at these positions. -/
def EdgeAt (l : Layer (Ext F)) (e : UInt32 × UInt32) (P : Vec2 F × Vec2 F) : Prop :=
  VertexAt l e.1 P.1 ∧ VertexAt l e.2 P.2

theorem pointInEdges_ext {l : Layer (Ext F)} {x : Vec2 F} {es : List (UInt32 × UInt32)}
    {Ps : List (Vec2 F × Vec2 F)} (hes : List.Forall₂ (EdgeAt l) es Ps)
    (hsharp : ∀ P ∈ Ps, |tri P.1 P.2 x| < 1 / 10000 → tri P.1 P.2 x = 0) :
    (l.pointInEdges (x.fin - l.offset) es = .ok true ∧
      ((∀ P ∈ Ps, 0 < tri P.1 P.2 x) ∨ ∃ P ∈ Ps, Between P.1 P.2 x)) ∨
    (l.pointInEdges (x.fin - l.offset) es = .ok false ∧
      ∃ P ∈ Ps, tri P.1 P.2 x < 0 ∨ (tri P.1 P.2 x = 0 ∧ ¬ Between P.1 P.2 x)) := by
  induction hes with
  | nil => exact .inl ⟨rfl, .inl (by simp)⟩
  | @cons e P es Ps he hes ih =>
    have ih := ih (fun P hP => hsharp P (List.mem_cons_of_mem _ hP))
    have hsh := hsharp P (by simp)
    obtain ⟨va, ca, o, hva, hca, ho, hA⟩ := he.1.finite
    obtain ⟨vb, cb, o', hvb, hcb, ho', hB⟩ := he.2.finite
    have hoo : o' = o := Vec2.fin_injective (ho'.symm.trans ho)
    subst hoo
    have hla := (List.getElem?_eq_some_iff.1 hva).1
    have hlb := (List.getElem?_eq_some_iff.1 hvb).1
    have htri : tri ca cb ⟨x.x - o'.x, x.y - o'.y⟩ = tri P.1 P.2 x := by
      rw [hA, hB]; simp only [tri]; ring
    have hbet : Between ca cb ⟨x.x - o'.x, x.y - o'.y⟩ ↔ Between P.1 P.2 x := by
      rw [hA, hB]
      unfold Between
      refine exists_congr fun u => ?_
      refine and_congr_right fun _ => and_congr_right fun _ => ?_
      rw [Vec2.ext_iff', Vec2.ext_iff']
      simp only [along]
      constructor
      · rintro ⟨h1, h2⟩; exact ⟨by linear_combination h1, by linear_combination h2⟩
      · rintro ⟨h1, h2⟩; exact ⟨by linear_combination h1, by linear_combination h2⟩
    have hmax : ¬ l.vertices.length ≤ (max e.1 e.2).toNat := by
      change ¬ l.vertices.length ≤ (if e.1 ≤ e.2 then e.2 else e.1).toNat
      split <;> omega
    have hsh' : |tri ca cb ⟨x.x - o'.x, x.y - o'.y⟩| < 1 / 10000 →
        tri ca cb ⟨x.x - o'.x, x.y - o'.y⟩ = 0 := by rw [htri]; exact hsh
    have hon := fin_onSegment hsh'
    have hleft := fin_side_left hsh'
    have hedge := fin_side_edge hsh'
    rw [htri] at hleft hedge
    rw [hbet] at hon
    unfold Layer.pointInEdges
    rw [if_neg hmax, idxUnchecked_eq_ok.2 hva, res_bind_ok, idxUnchecked_eq_ok.2 hvb, res_bind_ok]
    simp only
    rw [hca, hcb, ho, fin_sub]
    rw [ho, fin_sub] at ih
    by_cases hb : Between P.1 P.2 x
    · left
      have h0 := hb.box.1
      rw [if_pos (by rw [Bool.and_eq_true, decide_eq_true_iff]; exact ⟨hedge.2 h0, hon.2 hb⟩)]
      exact ⟨rfl, .inr ⟨P, by simp, hb⟩⟩
    · rw [if_neg (by rw [Bool.and_eq_true]; exact fun h => hb (hon.1 h.2))]
      by_cases hpos : 0 < tri P.1 P.2 x
      · rw [if_neg (by rw [not_not]; exact hleft.2 hpos)]
        rcases ih with ⟨h1, h2⟩ | ⟨h1, Q, hQ, h2⟩
        · refine .inl ⟨h1, ?_⟩
          rcases h2 with h2 | ⟨Q, hQ, h2⟩
          · left
            intro Q hQ
            rcases List.mem_cons.1 hQ with rfl | hQ
            · exact hpos
            · exact h2 Q hQ
          · exact .inr ⟨Q, List.mem_cons_of_mem _ hQ, h2⟩
        · exact .inr ⟨h1, Q, List.mem_cons_of_mem _ hQ, h2⟩
      · rw [if_pos (fun h => hpos (hleft.1 h))]
        refine .inr ⟨rfl, P, by simp, ?_⟩
        rcases lt_or_eq_of_le (not_lt.1 hpos) with h | h
        · exact .inl h
        · exact .inr ⟨h, hb⟩

omit [Scalar F] [ExactField F] in
/-- The edges of a strictly convex ring. -/
theorem StrictlyConvex.edge_inside {ps : List (Vec2 F)} (h : StrictlyConvex ps) {A B x : Vec2 F}
    (hc : Consecutive ps A B) (hb : Between A B x) : Inside ps x := by
  obtain ⟨i, hi, hA, hB⟩ := hc
  have hf := fan_of_consecutive h hi hA hB
  have : Between B A x := by
    obtain ⟨u, u0, u1, rfl⟩ := hb
    refine ⟨1 - u, by linarith, by linarith, ?_⟩
    rw [Vec2.ext_iff']
    simp only [along]
    constructor <;> ring
  exact (inside_rotate _).1 (hf.inside_base this)

omit [Scalar F] [ExactField F] in
theorem StrictlyConvex.inside_edge {ps : List (Vec2 F)} (h : StrictlyConvex ps) {A B x : Vec2 F}
    (hc : Consecutive ps A B) (hx : Inside ps x) (h0 : tri A B x = 0) : Between A B x := by
  obtain ⟨i, hi, hA, hB⟩ := hc
  have hf := fan_of_consecutive h hi hA hB
  have hx' := (inside_rotate (i + 1)).2 hx
  obtain ⟨u, u0, u1, hu⟩ := hf.on_base hx' (by rw [tri_swap, h0, neg_zero])
  refine ⟨1 - u, by linarith, by linarith, ?_⟩
  rw [hu, Vec2.ext_iff']
  simp only [along]
  constructor <;> ring

/-- `point_in_polygon` is exact for a point that is not a near miss. -/
theorem pointInPolygon_ext {l : Layer (Ext F)} {p : Polygon} {ps : List (Vec2 F)} {x : Vec2 F}
    (hring : List.Forall₂ (VertexAt l) p.vertices ps) (hconv : StrictlyConvex ps)
    (hsharp : ∀ A B, Consecutive ps A B → |tri A B x| < 1 / 10000 → tri A B x = 0) :
    (l.pointInPolygon (x.fin - l.offset) p = .ok true ∧ Inside ps x) ∨
    (l.pointInPolygon (x.fin - l.offset) p = .ok false ∧ ¬ Inside ps x) := by
  have hlen := hring.length_eq
  have h3 := hconv.1
  obtain ⟨es, hes⟩ : ∃ es, p.edgesIndex = .ok es := by
    unfold Polygon.edgesIndex
    split
    · rename_i h; rw [h] at hlen; simp at hlen; omega
    · exact ⟨_, rfl⟩
  obtain ⟨hel, hget⟩ := edgesIndex_getElem hes
  -- positions of the edges
  have hP : ∀ i, ∃ P : Vec2 F × Vec2 F, i < es.length → ps[i]? = some P.1 ∧
      ps[(i + 1) % ps.length]? = some P.2 ∧ ∀ e, es[i]? = some e → EdgeAt l e P := by
    intro i
    by_cases hi : i < es.length
    swap
    · exact ⟨(⟨0, 0⟩, ⟨0, 0⟩), fun h => absurd h hi⟩
    rw [hel] at hi
    obtain ⟨a, b, h1, h2, h3'⟩ := hget i hi
    obtain ⟨A, hA, hA'⟩ := forall₂_getElem hring h2
    obtain ⟨B, hB, hB'⟩ := forall₂_getElem hring h3'
    rw [hlen] at hB
    refine ⟨(A, B), fun _ => ⟨hA, hB, ?_⟩⟩
    intro e he
    rw [h1] at he
    cases he
    exact ⟨hA', hB'⟩
  choose P hP using hP
  have hP1 := fun i hi => (hP i hi).1
  have hP2 := fun i hi => (hP i hi).2.1
  have hP3 := fun i hi => (hP i hi).2.2
  have hfor : List.Forall₂ (EdgeAt l) es ((List.range es.length).map P) := by
    rw [List.forall₂_iff_get]
    refine ⟨by simp, ?_⟩
    intro i h1 h2
    simp only [List.get_eq_getElem, List.getElem_map, List.getElem_range]
    exact hP3 i h1 _ (List.getElem?_eq_getElem h1)
  have hmem : ∀ Q ∈ (List.range es.length).map P, Consecutive ps Q.1 Q.2 := by
    intro Q hQ
    simp only [List.mem_map, List.mem_range] at hQ
    obtain ⟨i, hi, rfl⟩ := hQ
    exact ⟨i, by omega, hP1 i hi, hP2 i hi⟩
  have hall : ∀ A B, Consecutive ps A B → (A, B) ∈ (List.range es.length).map P := by
    rintro A B ⟨i, hi, hA, hB⟩
    have hi' : i < es.length := by omega
    rw [List.mem_map]
    refine ⟨i, by simpa using hi', ?_⟩
    have e1 := hP1 i hi'
    have e2 := hP2 i hi'
    rw [hA] at e1
    rw [hB] at e2
    cases hPi : P i with
    | mk C D => rw [hPi] at e1 e2; cases e1; cases e2; rfl
  unfold Layer.pointInPolygon
  rw [hes, res_bind_ok]
  rcases pointInEdges_ext hfor (fun Q hQ => hsharp _ _ (hmem Q hQ)) with ⟨h1, h2⟩ | ⟨h1, Q, hQ, h2⟩
  · refine .inl ⟨h1, ?_⟩
    rcases h2 with h2 | ⟨Q, hQ, h2⟩
    · intro A B hAB
      exact (h2 (A, B) (hall A B hAB)).le
    · exact hconv.edge_inside (hmem Q hQ) h2
  · refine .inr ⟨h1, fun hin => ?_⟩
    rcases h2 with h2 | ⟨h2, h4⟩
    · exact absurd (hin _ _ (hmem Q hQ)) (not_le.2 h2)
    · exact h4 (hconv.inside_edge (hmem Q hQ) hin h2)

/-! ### The bounding box -/

omit [Scalar F] [ExactField F] in
/-- The corners of a convex polygon are not all strictly on one side of a line through a point of it.
(`f`, `g` are coordinates relative to `x`.) -/
theorem StrictlyConvex.both_sides {ps : List (Vec2 F)} (h : StrictlyConvex ps) {x : Vec2 F}
    (hx : Inside ps x) (f g : Vec2 F → F) (hfg : ∀ a b, f a * g b - g a * f b = tri a b x) :
    ∃ v ∈ ps, f v ≤ 0 := by
  by_contra hneg
  push Not at hneg
  have h3 := h.1
  have hpos : ∀ (i : Nat) (hi : i < ps.length), 0 < f ps[i] := fun i hi => hneg _ (List.getElem_mem hi)
  have hstep : ∀ (i j : Nat) (hi : i < ps.length) (hj : j < ps.length), (i + 1) % ps.length = j →
      g ps[i] / f ps[i] ≤ g ps[j] / f ps[j] := by
    intro i j hi hj hij
    have := hx ps[i] ps[j] ⟨i, hi, List.getElem?_eq_getElem hi, by rw [hij, List.getElem?_eq_getElem hj]⟩
    rw [← hfg] at this
    rw [div_le_div_iff₀ (hpos i hi) (hpos j hj)]
    linarith
  have hmono : ∀ (k : Nat) (i : Nat) (hik : i + k < ps.length),
      g ps[i] / f ps[i] ≤ g ps[i + k] / f ps[i + k] := by
    intro k
    induction k with
    | zero => intro i hi; exact le_refl _
    | succ k ih =>
      intro i hik
      refine (ih i (by omega)).trans ?_
      exact hstep (i + k) (i + (k + 1)) (by omega) hik (by rw [Nat.mod_eq_of_lt (by omega)]; omega)
  have hlast := hstep (ps.length - 1) 0 (by omega) (by omega)
    (by rw [show ps.length - 1 + 1 = ps.length by omega, Nat.mod_self])
  have heq : ∀ (i : Nat) (hi : i < ps.length), g ps[i] / f ps[i] = g (ps[0]'(by omega)) / f (ps[0]'(by omega)) := by
    intro i hi
    apply le_antisymm
    · have := hmono (ps.length - 1 - i) i (by omega)
      refine this.trans ?_
      have e : i + (ps.length - 1 - i) = ps.length - 1 := by omega
      simp only [e]
      exact hlast
    · have := hmono i 0 (by omega)
      simpa using this
  have hzero : ∀ (i j : Nat) (hi : i < ps.length) (hj : j < ps.length), tri ps[i] ps[j] x = 0 := by
    intro i j hi hj
    have := (heq i hi).trans (heq j hj).symm
    rw [div_eq_div_iff (hpos i hi).ne' (hpos j hj).ne'] at this
    rw [← hfg]
    linarith
  have hlt := h.2 0 1 2 _ _ _ (by omega) (by omega) (List.getElem?_eq_getElem (by omega))
    (List.getElem?_eq_getElem (by omega)) (List.getElem?_eq_getElem (by omega))
  have e : tri (ps[0]'(by omega)) (ps[1]'(by omega)) (ps[2]'(by omega)) =
      tri (ps[0]'(by omega)) (ps[1]'(by omega)) x + tri (ps[1]'(by omega)) (ps[2]'(by omega)) x
      + tri (ps[2]'(by omega)) (ps[0]'(by omega)) x := by
    simp only [tri]; ring
  rw [e, hzero, hzero, hzero] at hlt
  simp at hlt

omit [Scalar F] [ExactField F] in
theorem StrictlyConvex.box {ps : List (Vec2 F)} (h : StrictlyConvex ps) {x : Vec2 F}
    (hx : Inside ps x) : (∃ v ∈ ps, v.x ≤ x.x) ∧ (∃ v ∈ ps, x.x ≤ v.x) ∧ (∃ v ∈ ps, v.y ≤ x.y)
      ∧ (∃ v ∈ ps, x.y ≤ v.y) := by
  refine ⟨?_, ?_, ?_, ?_⟩
  · obtain ⟨v, hv, h1⟩ := h.both_sides hx (fun v => v.x - x.x) (fun v => v.y - x.y)
      (by intro a b; simp only [tri]; ring)
    exact ⟨v, hv, by linarith⟩
  · obtain ⟨v, hv, h1⟩ := h.both_sides hx (fun v => x.x - v.x) (fun v => x.y - v.y)
      (by intro a b; simp only [tri]; ring)
    exact ⟨v, hv, by linarith⟩
  · obtain ⟨v, hv, h1⟩ := h.both_sides hx (fun v => v.y - x.y) (fun v => x.x - v.x)
      (by intro a b; simp only [tri]; ring)
    exact ⟨v, hv, by linarith⟩
  · obtain ⟨v, hv, h1⟩ := h.both_sides hx (fun v => x.y - v.y) (fun v => v.x - x.x)
      (by intro a b; simp only [tri]; ring)
    exact ⟨v, hv, by linarith⟩

/-- The box of a list of finite vertices. -/
theorem aabb_ext {l : Layer (Ext F)} {o : Vec2 F} (ho : l.offset = o.fin) {vs : List UInt32}
    {ps : List (Vec2 F)} (h : List.Forall₂ (VertexAt l) vs ps) : ∀ lo hi : Vec2 F,
    ∃ lo' hi' : Vec2 F, vs.foldl l.aabbVertex (lo.fin, hi.fin) = (lo'.fin, hi'.fin)
      ∧ (lo'.x ≤ lo.x ∧ hi.x ≤ hi'.x ∧ lo'.y ≤ lo.y ∧ hi.y ≤ hi'.y)
      ∧ ∀ v ∈ ps, lo'.x ≤ v.x - o.x ∧ v.x - o.x ≤ hi'.x ∧ lo'.y ≤ v.y - o.y ∧ v.y - o.y ≤ hi'.y := by
  induction h with
  | nil => exact fun lo hi => ⟨lo, hi, rfl, ⟨le_rfl, le_rfl, le_rfl, le_rfl⟩, by simp⟩
  | @cons i X vs ps hX _ ih =>
    intro lo hi
    obtain ⟨v, c, o', hv, hc, ho', hXc⟩ := hX.finite
    have hoo : o' = o := Vec2.fin_injective (ho'.symm.trans ho)
    subst hoo
    have hstep : l.aabbVertex (lo.fin, hi.fin) i =
        ((⟨min lo.x c.x, min lo.y c.y⟩ : Vec2 F).fin, (⟨max hi.x c.x, max hi.y c.y⟩ : Vec2 F).fin) := by
      have hmin : ∀ a b : F, (if (Ext.fin b <. Ext.fin a) = true then Ext.fin b else Ext.fin a : Ext F)
          = Ext.fin (min a b) := by
        intro a b
        split
        · rename_i h; rw [ext_lt] at h; rw [min_eq_right h.le]
        · rename_i h; rw [ext_lt] at h; rw [min_eq_left (not_lt.1 h)]
      have hmax : ∀ a b : F, (if (Ext.fin a <. Ext.fin b) = true then Ext.fin b else Ext.fin a : Ext F)
          = Ext.fin (max a b) := by
        intro a b
        split
        · rename_i h; rw [ext_lt] at h; rw [max_eq_right h.le]
        · rename_i h; rw [ext_lt] at h; rw [max_eq_left (not_lt.1 h)]
      unfold Layer.aabbVertex
      rw [hv]
      simp only [aabbStep, hc, Vec2.fin, hmin, hmax]
    rw [List.foldl_cons, hstep]
    obtain ⟨lo', hi', h1, ⟨h2, h3, h4, h5⟩, h6⟩ := ih ⟨min lo.x c.x, min lo.y c.y⟩ ⟨max hi.x c.x, max hi.y c.y⟩
    refine ⟨lo', hi', h1, ⟨h2.trans (min_le_left _ _), (le_max_left _ _).trans h3,
      h4.trans (min_le_left _ _), (le_max_left _ _).trans h5⟩, ?_⟩
    intro w hw
    rcases List.mem_cons.1 hw with rfl | hw
    · rw [hXc]
      simp only [add_sub_cancel_right]
      exact ⟨h2.trans (min_le_right _ _), (le_max_right _ _).trans h3, h4.trans (min_le_right _ _),
        (le_max_right _ _).trans h5⟩
    · exact h6 w hw

/-- A point of the polygon is in its bounding box. -/
theorem inside_inBox {l : Layer (Ext F)} {p : Polygon} {ps : List (Vec2 F)} {x : Vec2 F}
    (hring : List.Forall₂ (VertexAt l) p.vertices ps) (hconv : StrictlyConvex ps) (hx : Inside ps x) :
    InBox (l.polygonAabb p) (x.fin - l.offset) := by
  obtain ⟨X, hX⟩ : ∃ X, ps[0]? = some X := ⟨_, List.getElem?_eq_getElem (by have := hconv.1; omega)⟩
  obtain ⟨i, hi, hat⟩ := forall₂_getElem' hring hX
  obtain ⟨-, -, o, -, -, ho, -⟩ := hat.finite
  obtain ⟨lo, hi, h1, -, h2⟩ := aabb_ext ho hring ⟨Scalar.maxVal, Scalar.maxVal⟩ ⟨0, 0⟩
  have hstart : ((⟨Scalar.maxVal, Scalar.maxVal⟩, Vec2.zero) : Aabb (Ext F)) =
      ((⟨Scalar.maxVal, Scalar.maxVal⟩ : Vec2 F).fin, (⟨0, 0⟩ : Vec2 F).fin) := by
    have : (Vec2.zero : Vec2 (Ext F)) = (⟨0, 0⟩ : Vec2 F).fin := by
      unfold Vec2.zero
      rw [ext_zero]; rfl
    rw [this]; rfl
  unfold Layer.polygonAabb
  rw [hstart, h1, ho, fin_sub]
  obtain ⟨⟨v1, m1, e1⟩, ⟨v2, m2, e2⟩, ⟨v3, m3, e3⟩, ⟨v4, m4, e4⟩⟩ := hconv.box hx
  refine ⟨(ext_le _ _).2 ?_, (ext_le _ _).2 ?_, (ext_le _ _).2 ?_, (ext_le _ _).2 ?_⟩
  · have := (h2 v1 m1).1; simp only; linarith
  · have := (h2 v2 m2).2.1; simp only; linarith
  · have := (h2 v3 m3).2.2.1; simp only; linarith
  · have := (h2 v4 m4).2.2.2; simp only; linarith

/-! ### Layers and meshes -/

/-- A mesh in which points can be looked up: the layers fit in the ids, each can be searched, with no finder
or the finder `bake` builds. -/
structure Mesh.Searchable (m : Mesh (Ext F)) : Prop where
  layers : m.layers.length ≤ 256
  layer : ∀ l ∈ m.layers, l.Findable ∧ l.FinderOk

omit [ExactField F] [IsStrictOrderedRing F] in
theorem hasPolygon_pack {m : Mesh (Ext F)} (hm : m.Searchable) {j k : Nat} {l : Layer (Ext F)}
    {p : Polygon} (hl : m.layers[j]? = some l) (hk : l.polygons[k]? = some p) :
    HasPolygon m (packId (UInt8.ofNat j) (UInt32.ofNat k)) l p := by
  have hj := (List.getElem?_eq_some_iff.1 hl).1
  have hkl := (List.getElem?_eq_some_iff.1 hk).1
  have hs := (hm.layer l (List.mem_of_getElem? hl)).1.sized
  have hm' := hm.layers
  have e1 : (UInt8.ofNat j).toNat = j := UInt8.toNat_ofNat_of_lt' (show j < 256 by omega)
  have e2 : (UInt32.ofNat k).toNat = k := UInt32.toNat_ofNat_of_lt' (show k < 4294967296 by omega)
  refine ⟨?_, ?_⟩
  · rw [idLayer_packId _ _ (by omega), e1]; exact hl
  · rw [idPolygon_packId _ _ (by omega), e2]; exact hk

/-- The point is in some polygon of layer number `j`. -/
def InLayer (m : Mesh (Ext F)) (j : Nat) (x : Vec2 F) : Prop := ∃ id, idLayer id = j ∧ InPolygon m id x

/-- Lookup in a layer: it answers, with a polygon that contains the point, or with none if there is none. -/
theorem locate_ext {bvh : Bvh (Ext F)} (hb : bvh.Complete) {m : Mesh (Ext F)} (hm : m.Searchable)
    (hc : Conforming m) {x : Vec2 F} (hx : Sharp m x) {j : Nat} {l : Layer (Ext F)}
    (hl : m.layers[j]? = some l) :
    ∃ r, l.locate bvh (x.fin - l.offset) = .ok r ∧ (r ≠ u32Max ↔ InLayer m j x) ∧
      (r ≠ u32Max → InPolygon m (packId (UInt8.ofNat j) r) x) := by
  obtain ⟨hfind, hfin⟩ := hm.layer l (List.mem_of_getElem? hl)
  have hpoly : ∀ (k : Nat) (p : Polygon), l.polygons[k]? = some p → ∃ ps,
      Ring m (packId (UInt8.ofNat j) (UInt32.ofNat k)) ps ∧ List.Forall₂ (VertexAt l) p.vertices ps ∧
      StrictlyConvex ps ∧
      ((l.pointInPolygon (x.fin - l.offset) p = .ok true ∧ Inside ps x) ∨
      (l.pointInPolygon (x.fin - l.offset) p = .ok false ∧ ¬ Inside ps x)) := by
    intro k p hk
    have hh := hasPolygon_pack hm hl hk
    obtain ⟨ps, hr, hconv⟩ := hc.convex _ l p hh
    obtain ⟨l', p', hh', hring⟩ := hr
    obtain ⟨rfl, rfl⟩ : l' = l ∧ p' = p := by
      have e1 := hh'.1
      rw [hh.1] at e1
      cases e1
      have e2 := hh'.2
      rw [hh.2] at e2
      cases e2
      exact ⟨rfl, rfl⟩
    refine ⟨ps, ⟨_, _, hh, hring⟩, hring, hconv, pointInPolygon_ext hring hconv ?_⟩
    intro A B hAB
    exact hx A B ⟨_, ps, ⟨_, _, hh, hring⟩, hAB⟩
  obtain ⟨r, hr, hiff⟩ := locate_iff_of_box hb hfind hfin (x.fin - l.offset) (by
    intro p hp hin
    obtain ⟨k, hk⟩ := List.mem_iff_getElem?.1 hp
    obtain ⟨ps, -, h1, h2, h3⟩ := hpoly k p hk
    rcases h3 with ⟨-, h3⟩ | ⟨h3, -⟩
    · exact inside_inBox h1 h2 h3
    · rw [hin] at h3; simp at h3)
  have hin : r ≠ u32Max → InPolygon m (packId (UInt8.ofNat j) r) x := by
    intro hne
    obtain ⟨k, p, hk, rfl, hpt⟩ := locate_found hr hne
    obtain ⟨ps, h1, -, -, h3⟩ := hpoly k p hk
    rcases h3 with ⟨-, h3⟩ | ⟨h3, -⟩
    · exact ⟨ps, h1, h3⟩
    · rw [hpt] at h3; simp at h3
  refine ⟨r, hr, ⟨fun hne => ?_, ?_⟩, hin⟩
  · have hlt := locate_lt hfind.sized hr hne
    have hs := hfind.sized
    have hm' := hm.layers
    have hj := (List.getElem?_eq_some_iff.1 hl).1
    refine ⟨_, ?_, hin hne⟩
    rw [idLayer_packId _ _ (by omega)]
    exact UInt8.toNat_ofNat_of_lt' (show j < 256 by omega)
  · rintro ⟨id, hid, ps, hring, hins⟩
    rw [hiff]
    obtain ⟨l', p, hh, hfor⟩ := hring
    have e1 := hh.1
    rw [hid, hl] at e1
    cases e1
    refine ⟨p, List.mem_of_getElem? hh.2, ?_⟩
    obtain ⟨ps', h1, h2, h3, h4⟩ := hpoly _ p hh.2
    have : ps' = ps := by
      obtain ⟨l'', p'', hh'', hfor''⟩ := h1
      have hring1 : Ring m id ps' := ⟨_, p, hh, h2⟩
      exact hring1.unique ⟨_, p, hh, hfor⟩
    subst this
    rcases h4 with ⟨h4, -⟩ | ⟨-, h4⟩
    · exact h4
    · exact absurd hins h4

/-- The first sample is the point itself. -/
theorem ringSample_ext (y : Vec2 F) (d : F) :
    ringSample y.fin (Ext.fin d) 0 0 = y.fin := by
  unfold ringSample
  have h10 : ((Scalar.ofNat (10 * (0 + 1)) : F) ==. Scalar.lit 0 0) = false := by
    rw [Bool.eq_false_iff, ne_eq, ExactField.eq, ExactField.ofNat, ExactField.lit]
    norm_num
  have hangle : ∃ z : F, ((Scalar.ofNat 0 *. Scalar.tau) /. Scalar.ofNat (10 * (0 + 1)) : Ext F) = Ext.fin z := by
    change ∃ z : F, Ext.div (Ext.fin (Scalar.ofNat 0 *. Scalar.tau)) (Ext.fin (Scalar.ofNat (10 * (0 + 1)))) = _
    unfold Ext.div
    simp only [h10]
    exact ⟨_, rfl⟩
  obtain ⟨z, hz⟩ := hangle
  rw [hz]
  have : (Vec2.smul (Vec2.smul ⟨Scalar.sin (Ext.fin z), Scalar.cos (Ext.fin z)⟩ (Ext.fin d))
      (Scalar.ofNat 0) : Vec2 (Ext F)) = (⟨0, 0⟩ : Vec2 F).fin := by
    change (⟨Ext.fin ((Scalar.sin z *. d) *. Scalar.ofNat 0), Ext.fin ((Scalar.cos z *. d) *. Scalar.ofNat 0)⟩
      : Vec2 (Ext F)) = _
    simp only [ExactField.mul, ExactField.ofNat, Nat.cast_zero, mul_zero]
    rfl
  simp only
  rw [this, fin_add]
  simp

/-- Where the closest-point search locates a point of the mesh: in a polygon that contains it. -/
theorem closestPoint_ext {bvh : Bvh (Ext F)} (hb : bvh.Complete) {m : Mesh (Ext F)} (hm : m.Searchable)
    (hc : Conforming m) {d : F} (hd : m.searchDelta = Ext.fin d) {x : Vec2 F} (hx : Sharp m x)
    {q : Coords (Ext F)} (hq : q.pos = x.fin) (hin : ∃ j, Allowed q j ∧ InLayer m j x) {c : Coords (Ext F)}
    (h : m.getClosestPoint bvh q = .ok (some c)) : InPolygon m c.polygonIndex x := by
  have hsample : ∀ (j : Nat) (l : Layer (Ext F)), m.layers[j]? = some l → InLayer m j x →
      ringSample (q.pos - l.offset) m.searchDelta 0 0 = x.fin - l.offset := by
    intro j l hl hin
    obtain ⟨id, hid, ps, hring, hins⟩ := hin
    obtain ⟨l', p, hh, hfor⟩ := hring
    have e1 := hh.1
    rw [hid, hl] at e1
    cases e1
    obtain ⟨ps', hr', hconv⟩ := hc.convex id _ p hh
    obtain rfl := hr'.unique ⟨_, p, hh, hfor⟩
    obtain ⟨X, hX⟩ : ∃ X, ps'[0]? = some X := ⟨_, List.getElem?_eq_getElem (by have := hconv.1; omega)⟩
    obtain ⟨i, hi, hat⟩ := forall₂_getElem' hfor hX
    obtain ⟨-, -, o, -, -, ho, -⟩ := hat.finite
    rw [hq, ho, hd, fin_sub, ringSample_ext]
  obtain ⟨j, hal, hj⟩ := hin
  obtain ⟨l, hl⟩ : ∃ l, m.layers[j]? = some l := by
    obtain ⟨id, hid, ps, ⟨l, p, hh, -⟩, -⟩ := hj
    exact ⟨l, hid ▸ hh.1⟩
  obtain ⟨step, j0, l0, np, r, hs, hl0, hal0, hi, rfl, hfirst⟩ := closestLoop_first h
  have hhit : l.closestInner bvh (q.pos - l.offset) m.searchDelta 0 ≠ .ok none := by
    intro hn
    have := closestInner_none hn 0 (by omega)
    rw [hsample j l hl hj] at this
    obtain ⟨r', h1, h2, -⟩ := locate_ext hb hm hc hx hl
    rw [this] at h1
    cases h1
    exact h2.2 hj rfl
  have hstep : step = 0 ∧ j0 ≤ j := by
    by_contra hcon
    exact hhit (hfirst 0 j l (by omega) hl hal)
  obtain ⟨rfl, -⟩ := hstep
  obtain ⟨i, hi0, rfl, hloc, hne, -⟩ := closestInner_first hi
  have hi0 : i = 0 := by omega
  subst hi0
  obtain ⟨k, p, hk, rfl, hpt⟩ := locate_found hloc hne
  -- the layer has a polygon, so its offset is finite
  have hh := hasPolygon_pack hm hl0 hk
  obtain ⟨ps', ⟨l', p', hh', hfor⟩, hconv⟩ := hc.convex _ _ _ hh
  obtain ⟨X, hX⟩ : ∃ X, ps'[0]? = some X := ⟨_, List.getElem?_eq_getElem (by have := hconv.1; omega)⟩
  obtain ⟨i, hi, hat⟩ := forall₂_getElem' hfor hX
  obtain ⟨-, -, o, -, -, ho, -⟩ := hat.finite
  have e1 := hh'.1
  rw [hh.1] at e1
  cases e1
  have hsam : ringSample (q.pos - l0.offset) m.searchDelta 0 0 = x.fin - l0.offset := by
    rw [hq, ho, hd, fin_sub, ringSample_ext]
  obtain ⟨r', h1, -, h3⟩ := locate_ext hb hm hc hx hl0
  rw [hsam] at hloc
  rw [hloc] at h1
  cases h1
  exact h3 hne

/-- Query coordinates that name a point of the mesh: no polygon is imposed, and the point is in a polygon of
an allowed layer. -/
structure PointOfMesh (m : Mesh (Ext F)) (c : Coords (Ext F)) (x : Vec2 F) : Prop where
  pos : c.pos = x.fin
  free : c.polygonIndex = u32Max
  inside : ∃ j, Allowed c j ∧ InLayer m j x

/-- A point of the mesh is located in a polygon that contains it. -/
theorem PointOfMesh.located {bvh : Bvh (Ext F)} (hb : bvh.Complete) {m : Mesh (Ext F)} (hm : m.Searchable)
    (hc : Conforming m) {d : F} (hd : m.searchDelta = Ext.fin d) {x : Vec2 F} (hx : Sharp m x)
    {q : Coords (Ext F)} (hq : PointOfMesh m q x) {id : UInt32} (h : Located m bvh q id) :
    InPolygon m id x := by
  rcases h with ⟨h, -⟩ | ⟨-, c, hc', rfl⟩
  · exact absurd hq.free h
  · exact closestPoint_ext hb hm hc hd hx hq.pos hq.inside hc'

end Polyanya
