import Verif.Proofs.Compact
import Verif.Proofs.Corridor
/-
The merging loop of `merge_polygons` (`merger.rs:36-101`).
-/

namespace Polyanya

variable {K : Type} [Scalar K]

/-- What one iteration of the merging loop does. -/
inductive MStep (geo : Geo K) (l : Layer K) (i : Nat) (st : MergeState) : MergeState → Prop
  | skip : MStep geo l i st st
  | merge {a b : UInt32} {poly other : Polygon} {o : UInt32} {start stop : Vertex K} {cs : List (Vec2 K)}
      {par' : List Nat} :
      Root st.parent i i → st.polygons[i]? = some poly → IsEdge poly.vertices a b →
      l.vertices[a.toNat]? = some start → l.vertices[b.toNat]? = some stop →
      o ∈ start.polygons → o ∈ stop.polygons → o ≠ u32Max → o ≠ UInt32.ofNat i →
      Root st.parent o.toNat o.toNat → st.polygons[o.toNat]? = some other →
      l.coordsOf (joinVertices poly.vertices other.vertices (a, b)) = .ok cs → geo.ccwConvex cs = true →
      par'.length = st.parent.length →
      (∀ z s, Root st.parent z s → Root par' z (if s = o.toNat then i else s)) →
      MStep geo l i st
        { polygons := st.polygons.set i
            { vertices := joinVertices poly.vertices other.vertices (a, b), isOneWay := false },
          parent := par' }

theorem mergeEdge_some {geo : Geo K} {l : Layer K} {st st' : MergeState} {i : Nat} {poly : Polygon}
    {e : UInt32 × UInt32} (hi : Root st.parent i i) (hp : st.polygons[i]? = some poly)
    (he : IsEdge poly.vertices e.1 e.2) (h : l.mergeEdge geo st i poly.vertices e = .ok (some st')) :
    MStep geo l i st st' := by
  obtain ⟨a, b⟩ := e
  unfold Layer.mergeEdge at h
  split at h
  · rename_i start stop hstart hstop
    cases hf : start.polygons.find? (fun p =>
      p != u32Max && p != UInt32.ofNat i && stop.polygons.contains p) with
    | none => simp only [hf, Option.getD_none, if_true, Except.ok.injEq, reduceCtorEq] at h
    | some o =>
      have h1 := List.find?_some hf
      have h2 := List.mem_of_find?_eq_some hf
      simp only [Bool.and_eq_true, bne_iff_ne, ne_eq, List.contains_iff_mem] at h1
      simp only [hf, Option.getD_some, h1.1.1, if_false] at h
      rw [bind_eq_ok] at h
      obtain ⟨r, hr, h⟩ := h
      split at h
      · simp at h
      · rename_i hro
        simp only [ne_eq, not_not] at hro
        rw [bind_eq_ok] at h
        obtain ⟨other, hother, h⟩ := h
        split at h
        · simp at h
        · rw [bind_eq_ok] at h
          obtain ⟨cs, hcs, h⟩ := h
          split at h
          · rename_i hconv
            rw [bind_eq_ok] at h
            obtain ⟨par', hpar, h⟩ := h
            simp only [Except.ok.injEq, Option.some.injEq] at h
            subst h
            have hroot : Root st.parent o.toNat o.toNat := by
              have := ufFind_ok hr; rwa [hro] at this
            obtain ⟨p2, he2, hl2, hr2⟩ := ufUnion_root hi hroot
            rw [hpar] at he2
            cases he2
            rw [idx_eq_ok] at hother
            exact .merge hi hp he hstart hstop h2 h1.2 h1.1.1 h1.1.2 hroot hother hcs
              hconv hl2 hr2
          · simp at h
  · simp at h

theorem mergeOne_step {geo : Geo K} {l : Layer K} {st st' : MergeState} {i : Nat}
    (h : l.mergeOne geo st i = .ok st') : MStep geo l i st st' := by
  unfold Layer.mergeOne at h
  rw [bind_eq_ok] at h
  obtain ⟨r, hr, h⟩ := h
  split at h
  · simp only [Except.ok.injEq] at h; subst h; exact .skip
  · rename_i hri
    simp only [ne_eq, not_not] at hri
    subst hri
    rw [bind_eq_ok] at h
    obtain ⟨poly, hp, h⟩ := h
    rw [bind_eq_ok] at h
    obtain ⟨es, hes, h⟩ := h
    rw [bind_eq_ok] at h
    obtain ⟨o, ho, h⟩ := h
    simp only [Except.ok.injEq] at h
    subst h
    cases o with
    | none => exact .skip
    | some st' =>
      obtain ⟨l1, e, l2, rfl, hx, -⟩ := findFirst_some ho
      exact mergeEdge_some (ufFind_ok hr) (idx_eq_ok.1 hp)
        ((mem_edgesIndex hes e.1 e.2).1 (by simp)) hx

/-- The loop invariant that needs nothing of the layer. -/
structure MBase (n : Nat) (st : MergeState) : Prop where
  polyLen : st.polygons.length = n
  parLen : st.parent.length = n
  ok : UfOk st.parent

theorem MStep.base {geo : Geo K} {l : Layer K} {i n : Nat} {st st' : MergeState}
    (hs : MStep geo l i st st') (h : MBase n st) : MBase n st' := by
  cases hs with
  | skip => exact h
  | @merge a b poly other o start stop cs par' hi _ _ _ _ _ _ _ _ ho _ _ _ hl hr =>
    refine ⟨by simp [h.polyLen], by rw [hl, h.parLen], ?_⟩
    intro x hx
    obtain ⟨s, hs⟩ := h.ok x (by rw [← hl]; exact hx)
    exact ⟨_, hr x s hs⟩

theorem MBase.init (P : List Polygon) : MBase P.length { polygons := P, parent := ufNew P.length } :=
  ⟨rfl, by simp [ufNew], ufOk_new _⟩

theorem mergeLoop_base {geo : Geo K} {l : Layer K} {order : List Nat} {st : MergeState}
    (h : order.foldlM (l.mergeOne geo) { polygons := l.polygons, parent := ufNew l.polygons.length } =
      .ok st) : MBase l.polygons.length st :=
  foldlM_inv (MBase l.polygons.length) (MBase.init _) (fun _ _ _ _ hb h => (mergeOne_step h).base hb) h

/-- What a run of `merge_polygons` that does not fault went through. -/
theorem mergePolygons_ok {geo : Geo K} {l l' : Layer K} {b : Bool}
    (h : l.mergePolygons geo = .ok (l', b)) :
    ∃ order st cst vs, l.unbake.mergeOrder geo = .ok order ∧
      order.foldlM (l.unbake.mergeOne geo)
        { polygons := l.polygons, parent := ufNew l.polygons.length } = .ok st ∧
      MBase l.polygons.length st ∧ CInv st.parent st.polygons l.polygons.length cst ∧
      l.vertices.mapM (mergeVertex cst.new) = .ok vs ∧
      l' = { l.unbake with polygons := cst.polygons.take cst.kept, vertices := vs } ∧
      b = decide (l.polygons.length ≠ cst.kept) := by
  unfold Layer.mergePolygons at h
  simp only at h
  rw [bind_eq_ok] at h
  obtain ⟨order, horder, h⟩ := h
  rw [bind_eq_ok] at h
  obtain ⟨st, hst, h⟩ := h
  have hb : MBase l.polygons.length st := mergeLoop_base (l := l.unbake) hst
  obtain ⟨cst, hc, hinv⟩ := compact_ok (par := st.parent) (P := st.polygons)
    (by rw [hb.polyLen, hb.parLen]) hb.ok
  rw [hb.polyLen] at hc hinv
  have : l.unbake.polygons = l.polygons := rfl
  rw [this, hc, res_bind_ok] at h
  split at h
  · simp at h
  · rw [bind_eq_ok] at h
    obtain ⟨vs, hvs, h⟩ := h
    simp only [Except.ok.injEq, Prod.mk.injEq] at h
    refine ⟨order, st, cst, vs, horder, hst, hb, hinv, hvs, h.1.symm, ?_⟩
    rw [← h.2, hinv.newLen, hb.polyLen]

/-- Facts about the result needed for C24. -/
theorem mergePolygons_count {geo : Geo K} {l l' : Layer K} {b : Bool}
    (h : l.mergePolygons geo = .ok (l', b)) :
    l'.polygons.length ≤ l.polygons.length ∧ (b = true ↔ l'.polygons.length < l.polygons.length) ∧
      (0 < l.polygons.length → 0 < l'.polygons.length) := by
  obtain ⟨order, st, cst, vs, _, _, hb, hinv, _, rfl, rfl⟩ := mergePolygons_ok h
  have hk := hinv.keptLe
  have hlen : (cst.polygons.take cst.kept).length = cst.kept := by
    rw [List.length_take, hinv.polyLen, hb.polyLen]; omega
  refine ⟨by simp only [hlen]; exact hk, ?_, ?_⟩
  · simp only [hlen, decide_eq_true_eq]; omega
  · intro hpos
    simp only [hlen]
    obtain ⟨j, hj⟩ := hinv.done 0 hpos
    have := (hinv.slot 0 j hj).1
    omega

end Polyanya
