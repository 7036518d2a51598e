import Verif.Proofs.View
import Verif.Proofs.Corridor
/-
`edges_between` in exact arithmetic without near misses: it visits the edges of the polygon from the right
end of the interval's edge to its left end.
-/

namespace Polyanya

theorem foldlM_inv_idx {σ α : Type} {f : σ → α → Res σ} (P : Nat → σ → Prop) {l : List α} {s s' : σ}
    (h0 : P 0 s)
    (hstep : ∀ (k : Nat) s a s', l[k]? = some a → P k s → f s a = .ok s' → P (k + 1) s')
    (h : l.foldlM f s = .ok s') : P l.length s' := by
  induction l generalizing s P with
  | nil =>
    simp only [List.foldlM_nil, res_pure, Except.ok.injEq] at h
    exact h ▸ h0
  | cons a l ih =>
    rw [List.foldlM_cons, bind_eq_ok] at h
    obtain ⟨s1, h1, h2⟩ := h
    exact ih (fun k => P (k + 1)) (hstep 0 s a s1 (by simp) h0 h1)
      (fun k s a s' ha => hstep (k + 1) s a s' (by simpa using ha)) h2

/-- The edges in order. -/
theorem edgesIndex_getElem {p : Polygon} {es : List (UInt32 × UInt32)} (h : p.edgesIndex = .ok es) :
    es.length = p.vertices.length ∧ ∀ i, i < p.vertices.length → ∃ a b, es[i]? = some (a, b)
      ∧ p.vertices[i]? = some a ∧ p.vertices[(i + 1) % p.vertices.length]? = some b := by
  unfold Polygon.edgesIndex at h
  split at h
  · simp at h
  · rename_i v vs hv
    simp only [Except.ok.injEq] at h
    subst h
    rw [hv]
    have hlen : (windows2 (v :: vs)).length = vs.length := by
      unfold windows2
      rw [List.length_zip]
      simp
    refine ⟨by simp [hlen], ?_⟩
    intro i hi
    simp only [List.length_cons] at hi
    by_cases hl : i < vs.length
    · rw [List.getElem?_append_left (by omega), List.length_cons, Nat.mod_eq_of_lt (by omega)]
      obtain ⟨a, ha⟩ : ∃ a, (v :: vs)[i]? = some a := ⟨_, List.getElem?_eq_getElem (by simp; omega)⟩
      obtain ⟨b, hb⟩ : ∃ b, (v :: vs)[i + 1]? = some b := ⟨_, List.getElem?_eq_getElem (by simp; omega)⟩
      refine ⟨a, b, ?_, ha, hb⟩
      unfold windows2
      rw [List.getElem?_zip_eq_some]
      exact ⟨ha, by simpa using hb⟩
    · have hi' : i = vs.length := by omega
      subst hi'
      refine ⟨(v :: vs).getLast (by simp), v, ?_, ?_, ?_⟩
      · rw [List.getElem?_append_right (by omega), hlen]
        simp
      · rw [List.getLast_eq_getElem]
        simp
      · simp

theorem getElem?_append_self {α : Type} {l : List α} {j : Nat} (h : j < 2 * l.length) :
    (l ++ l)[j]? = l[j % l.length]? := by
  by_cases hj : j < l.length
  · rw [List.getElem?_append_left hj, Nat.mod_eq_of_lt hj]
  · rw [List.getElem?_append_right (by omega), Nat.mod_eq_sub_mod (by omega),
      Nat.mod_eq_of_lt (by omega)]

/-- The edges visited by `edges_between`. -/
theorem circularEdges_getElem {p : Polygon} {es : List (UInt32 × UInt32)} {ri : Nat}
    (hri : ri < p.vertices.length) (hn : 2 ≤ p.vertices.length)
    (h : p.circularEdgesIndex (ri + 1) (p.vertices.length + (ri + 1) - 2) = .ok es) :
    es.length = p.vertices.length - 1 ∧ ∀ k e, es[k]? = some e → k + 1 < p.vertices.length
      ∧ p.vertices[(k + (ri + 1)) % p.vertices.length]? = some e.1
      ∧ p.vertices[(k + 1 + (ri + 1)) % p.vertices.length]? = some e.2 := by
  unfold Polygon.circularEdgesIndex at h
  simp only [bind_eq_ok, Except.ok.injEq] at h
  obtain ⟨l, hl, rfl⟩ := h
  obtain ⟨hlen, hget⟩ := edgesIndex_getElem hl
  have htake : p.vertices.length + (ri + 1) - 2 + 1 - (ri + 1) = p.vertices.length - 1 := by omega
  rw [htake]
  refine ⟨?_, ?_⟩
  · rw [List.length_take, List.length_drop, List.length_append, hlen]
    omega
  · intro k e hk
    rw [List.getElem?_take] at hk
    split at hk
    · rename_i hkn
      rw [List.getElem?_drop, getElem?_append_self (by omega), hlen] at hk
      obtain ⟨a, b, h1, h2, h3⟩ := hget ((ri + 1 + k) % p.vertices.length) (Nat.mod_lt _ (by omega))
      rw [hk] at h1
      cases h1
      refine ⟨by omega, ?_, ?_⟩
      · rw [Nat.add_comm k]; exact h2
      · rw [Nat.mod_add_mod] at h3
        rw [← h3]
        congr 2
        omega
    · simp at hk

variable {F : Type} [Field F] [LinearOrder F] [Scalar F]

theorem VertexAt.unique {l : Layer (Ext F)} {i : UInt32} {x y : Vec2 F} (hx : VertexAt l i x)
    (hy : VertexAt l i y) : x = y := by
  obtain ⟨v, h1, h2⟩ := hx
  obtain ⟨w, h3, h4⟩ := hy
  rw [h1] at h3
  cases h3
  exact Vec2.fin_injective (h2.symm.trans h4)

theorem Ring.unique {m : Mesh (Ext F)} {id : UInt32} {ps qs : List (Vec2 F)} (hp : Ring m id ps)
    (hq : Ring m id qs) : ps = qs := by
  obtain ⟨l, p, ⟨h1, h2⟩, h3⟩ := hp
  obtain ⟨l', p', ⟨h1', h2'⟩, h3'⟩ := hq
  rw [h1] at h1'
  cases h1'
  rw [h2] at h2'
  cases h2'
  generalize p.vertices = vs at h3 h3'
  induction h3 generalizing qs with
  | nil => cases h3'; rfl
  | cons ha _ ih =>
    cases h3' with
    | cons hb hs => rw [ha.unique hb, ih hs]

theorem forall₂_getElem {α β : Type} {R : α → β → Prop} {l : List α} {l' : List β}
    (h : List.Forall₂ R l l') {i : Nat} {a : α} (ha : l[i]? = some a) :
    ∃ b, l'[i]? = some b ∧ R a b := by
  induction h generalizing i with
  | nil => simp at ha
  | cons hab _ ih =>
    cases i with
    | zero => simp only [List.getElem?_cons_zero, Option.some.injEq] at ha; subst ha; exact ⟨_, rfl, hab⟩
    | succ i => exact ih (by simpa using ha)

theorem forall₂_getElem' {α β : Type} {R : α → β → Prop} {l : List α} {l' : List β}
    (h : List.Forall₂ R l l') {i : Nat} {b : β} (hb : l'[i]? = some b) :
    ∃ a, l[i]? = some a ∧ R a b := by
  obtain ⟨a, ha, hr⟩ := forall₂_getElem h.flip hb
  exact ⟨a, ha, hr⟩

variable [ExactField F] [IsStrictOrderedRing F]

theorem StrictlyConvex.injective {ps : List (Vec2 F)} (h : StrictlyConvex ps) {i j : Nat} {x : Vec2 F}
    (hi : ps[i]? = some x) (hj : ps[j]? = some x) : i = j := by
  have key : ∀ i j : Nat, ps[i]? = some x → ps[j]? = some x → i < j → False := by
    intro i j hi hj hij
    have hjl : j < ps.length := (List.getElem?_eq_some_iff.1 hj).1
    have h3 := h.1
    by_cases h0 : 0 < i
    · have := h.2 0 i j _ _ _ h0 hij (List.getElem?_eq_getElem (by omega)) hi hj
      simp at this
    · by_cases h1 : i + 1 < j
      · have := h.2 i (i + 1) j _ _ _ (by omega) h1 hi (List.getElem?_eq_getElem (by omega)) hj
        simp at this
      · have := h.2 i j (j + 1) _ _ _ hij (by omega) hi hj (List.getElem?_eq_getElem (by omega))
        simp at this
  rcases lt_trichotomy i j with h1 | h1 | h1
  · exact (key i j hi hj h1).elim
  · exact h1
  · exact (key j i hj hi h1).elim

/-- `rightIndex` finds the vertex at `B`. -/
theorem rightIndex_exact {l : Layer (Ext F)} {p : Polygon} {ps : List (Vec2 F)}
    (hps : List.Forall₂ (VertexAt l) p.vertices ps) {B : Vec2 F} {i : Nat} (hi : ps[i]? = some B)
    (hap : ∀ v ∈ ps, sqDist v B < 1 / 1000 → v = B) {ri : Nat} (h : rightIndex l p B.fin = .ok ri) :
    ps[ri]? = some B := by
  unfold rightIndex at h
  rw [bind_eq_ok] at h
  obtain ⟨near, hn, h⟩ := h
  have htest : ∀ v x, VertexAt l v x → ∀ j : Nat, (do
      let vx ← idx l.vertices (v, j).1.toNat
      .ok (if (vx.coords + l.offset).distanceSquared B.fin <. Scalar.lit 1 3 then some (v, j).2
        else none) : Res (Option Nat)) = .ok (if sqDist x B < 1 / 1000 then some j else none) := by
    rintro v x ⟨vx, hv, hx⟩ j
    rw [idx_eq_ok.2 hv]
    simp only [res_bind_ok]
    rw [hx, fin_distanceSquared, ext_lit]
    simp only [ext_lt]
    norm_num
  cases near with
  | some j =>
    simp only [Except.ok.injEq] at h
    subst h
    obtain ⟨l1, ⟨v, j'⟩, l2, hl, hf, -⟩ := findFirst_some hn
    have hmem : (v, j') ∈ p.vertices.zipIdx := by rw [hl]; simp
    rw [List.mem_zipIdx_iff_getElem?] at hmem
    obtain ⟨x, hx, hvx⟩ := forall₂_getElem hps hmem
    rw [htest v x hvx j'] at hf
    simp only [Except.ok.injEq] at hf
    split at hf
    · rename_i hd
      cases hf
      rw [← hap x (List.mem_of_getElem? hx) hd]
      exact hx
    · simp at hf
  | none =>
    exfalso
    obtain ⟨v, hv, hvB⟩ := forall₂_getElem' hps hi
    have := findFirst_none.1 hn (v, i) (by rw [List.mem_zipIdx_iff_getElem?]; exact hv)
    rw [htest v B hvB i] at this
    simp [sqDist] at this

/-- `edges_between`: its successors are good parts of edges of the polygon, in terms of the view of the
node's root through its interval. -/
theorem edgesBetween_view {m : Mesh (Ext F)} {node : SearchNode (Ext F)} {succs : List (Successor (Ext F))}
    (he : edgesBetween m node = .ok succs) {prev : Layer (Ext F)} {r a b A B : Vec2 F} {s t : F}
    (hprev : m.layers[node.previousPolygonLayer.toNat]? = some prev)
    (hB : VertexAt prev node.edge.2 B) (hroot : node.root = r.fin)
    (hint : node.interval = (a.fin, b.fin)) {ps : List (Vec2 F)} (hring : Ring m node.polygonTo ps)
    (hconv : StrictlyConvex ps) (hcons : Consecutive ps B A)
    (hap : ∀ v ∈ ps, sqDist v B < 1 / 1000 → v = B)
    (hview : ∀ n, Fan (ps.rotate n) A B → View (ps.rotate n) A B r a b s t) :
    ∃ l p n, HasPolygon m node.polygonTo l p ∧ List.Forall₂ (VertexAt l) p.vertices ps
      ∧ View (ps.rotate n) A B r a b s t ∧
      ∀ su ∈ succs, ∃ (k : Nat) (C D : Vec2 F), (ps.rotate n)[k]? = some C ∧ (ps.rotate n)[k + 1]? = some D
        ∧ VertexAt l su.edge.1 C ∧ VertexAt l su.edge.2 D
        ∧ ∃ i1 i2 u1 u2, View.Good r a b C D su.edge su i1 i2 u1 u2 := by
  obtain ⟨l, p, hp, hps⟩ := hring
  unfold edgesBetween at he
  simp only [bind_eq_ok, idx_eq_ok] at he
  obtain ⟨layer, hl, poly, hpoly, prev', hpv, ev, hev, ri, hri, edges, hc, res, hf, he⟩ := he
  simp only [Except.ok.injEq] at he
  subst he
  rw [layerOf_toNat, hp.1] at hl
  cases hl
  rw [polygonOf_toNat, hp.2] at hpoly
  cases hpoly
  rw [hprev] at hpv
  cases hpv
  obtain ⟨ev', hev', hevB⟩ := hB
  rw [hev] at hev'
  cases hev'
  rw [hevB] at hri
  obtain ⟨i, hi, hiB, hiA⟩ := hcons
  have hriB := rightIndex_exact hps hiB hap hri
  have : ri = i := hconv.injective hriB hiB
  subst this
  have hlen : p.vertices.length = ps.length := hps.length_eq
  have hfan := fan_of_consecutive hconv hi hiB hiA
  have hv := hview _ hfan
  refine ⟨l, p, ri + 1, hp, hps, hv, ?_⟩
  have h3 := hconv.1
  obtain ⟨helen, hedges⟩ := circularEdges_getElem (by omega) (by omega) hc
  have hfinal := foldlM_inv_idx (fun (k : Nat) (st : List (Successor (Ext F)) × SuccTy) =>
    (∀ su ∈ st.1, ∃ (k : Nat) (C D : Vec2 F), (ps.rotate (ri + 1))[k]? = some C
        ∧ (ps.rotate (ri + 1))[k + 1]? = some D
        ∧ VertexAt l su.edge.1 C ∧ VertexAt l su.edge.2 D
        ∧ ∃ i1 i2 u1 u2, View.Good r a b C D su.edge su i1 i2 u1 u2)
    ∧ ∃ v, (ps.rotate (ri + 1))[k]? = some v ∧ View.State r a b k v st.2) ?_ ?_ hf
  · exact hfinal.1
  · exact ⟨by simp, A, hfan.first, hv.aA⟩
  · intro k st e st' hk hst hstep
    obtain ⟨hk1, hea, heb⟩ := hedges k e hk
    obtain ⟨C, hC, hCv⟩ := forall₂_getElem hps hea
    obtain ⟨D, hD, hDv⟩ := forall₂_getElem hps heb
    have hCw : (ps.rotate (ri + 1))[k]? = some C := by
      rw [List.getElem?_rotate (by omega), ← hlen]; exact hC
    have hDw : (ps.rotate (ri + 1))[k + 1]? = some D := by
      rw [List.getElem?_rotate (by omega), ← hlen]; exact hD
    obtain ⟨hgood, v, hvk, hstate⟩ := hst
    rw [hCw] at hvk
    cases hvk
    unfold edgesBetweenStep at hstep
    obtain ⟨vC, hvC, hvC'⟩ := id hCv
    obtain ⟨vD, hvD, hvD'⟩ := id hDv
    have g1 : e.1.toNat < l.vertices.length := (List.getElem?_eq_some_iff.1 hvC).1
    have g2 : e.2.toNat < l.vertices.length := (List.getElem?_eq_some_iff.1 hvD).1
    rw [if_neg (by
      change ¬ l.vertices.length < (if e.1 ≤ e.2 then e.2 else e.1).toNat
      split <;> omega)] at hstep
    rw [idxUnchecked_eq_ok.2 hvC, idxUnchecked_eq_ok.2 hvD] at hstep
    simp only [res_bind_ok, Except.ok.injEq] at hstep
    rw [hvC', hvD', hroot, hint] at hstep
    obtain ⟨hb1, hb2⟩ := hv.body_step hCw hDw hstate e
    subst hstep
    refine ⟨?_, D, hDw, hb2⟩
    intro su hsu
    rw [List.append_assoc] at hsu
    rcases List.mem_append.1 hsu with hsu | hsu
    · exact hgood su hsu
    · obtain ⟨i1, i2, u1, u2, hg⟩ := hb1 su hsu
      rw [hg.edge]
      exact ⟨k, C, D, hCw, hDw, hCv, hDv, i1, i2, u1, u2, hg⟩

end Polyanya
