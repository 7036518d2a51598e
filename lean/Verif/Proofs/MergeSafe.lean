import Verif.Proofs.MergeInv
import Verif.Proofs.Safe
/-
`merge_polygons` does not panic on consistent layers.
-/

namespace Polyanya

variable {K : Type} [Scalar K]

theorem mem_join {poly other : List UInt32} {e : UInt32 × UInt32} {v : UInt32}
    (h : v ∈ joinVertices poly other e) : v ∈ poly ∨ v ∈ other := by
  unfold joinVertices at h
  rw [List.mem_append] at h
  rcases h with h | h
  · have := (List.dropWhile_sublist _).mem ((List.takeWhile_sublist _).mem h)
    simp only [List.mem_append, or_self] at this
    exact .inl this
  · have := (List.dropWhile_sublist _).mem ((List.takeWhile_sublist _).mem h)
    simp only [List.mem_append, or_self] at this
    exact .inr this

theorem exists_first {α : Type} [DecidableEq α] {b : α} : ∀ {l : List α}, b ∈ l → ∃ s t, l = s ++ b :: t ∧ b ∉ s
  | [], h => by simp at h
  | a :: l, h => by
    by_cases hab : a = b
    · subst hab; exact ⟨[], l, rfl, by simp⟩
    · obtain ⟨s, t, rfl, hs⟩ := exists_first (l := l) (by
        rcases List.mem_cons.1 h with h | h
        · exact absurd h.symm hab
        · exact h)
      exact ⟨a :: s, t, rfl, by simp [hs, Ne.symm hab]⟩

theorem join_ne_nil {poly other : List UInt32} {a b : UInt32} (hb : b ∈ poly) (hab : a ≠ b) :
    joinVertices poly other (a, b) ≠ [] := by
  have : ∃ r, (poly ++ poly).dropWhile (· != b) = b :: r := by
    obtain ⟨s, t, hst, hns⟩ : ∃ s t, poly ++ poly = s ++ b :: t ∧ b ∉ s :=
      exists_first (by simp [hb])
    exact ⟨t, by
      rw [hst]
      apply dropWhile_append_stop _ (by simp)
      intro x hx
      rw [bne_iff_ne]; rintro rfl; exact hns hx⟩
  obtain ⟨r, hr⟩ := this
  unfold joinVertices
  simp only
  rw [hr, List.takeWhile_cons, if_pos (by rw [bne_iff_ne]; exact Ne.symm hab)]
  simp

structure MSafe (l : Layer K) (todo : List Nat) (st : MergeState) : Prop where
  base : MBase l.polygons.length st
  todo : ∀ i ∈ todo, st.polygons[i]? = l.polygons[i]?
  poly : ∀ p ∈ st.polygons, p.vertices ≠ [] ∧ ∀ v ∈ p.vertices, v.toNat < l.vertices.length

theorem coordsOf_ok {l : Layer K} {vs : List UInt32} (h : ∀ v ∈ vs, v.toNat < l.vertices.length) :
    Safe (l.coordsOf vs) :=
  safe_mapM vs (fun v hv => safe_bind (safe_idx (h v hv)) (fun _ _ => safe_ok _))

theorem mergeEdge_ok {geo : Geo K} {l : Layer K} (hcon : l.Consistent) {st : MergeState}
    (hb : MBase l.polygons.length st)
    (hpoly : ∀ p ∈ st.polygons, p.vertices ≠ [] ∧ ∀ v ∈ p.vertices, v.toNat < l.vertices.length)
    {i : Nat} (hi : Root st.parent i i) {Y : Polygon} (hp : st.polygons[i]? = some Y)
    (e : UInt32 × UInt32) : ∃ r, l.mergeEdge geo st i Y.vertices e = .ok r := by
  unfold Layer.mergeEdge
  split
  · rename_i start stop hstart hstop
    cases hf : start.polygons.find? (fun p =>
      p != u32Max && p != UInt32.ofNat i && stop.polygons.contains p) with
    | none => exact ⟨none, by simp only [Option.getD_none, if_true]⟩
    | some o =>
      have h1 := List.find?_some hf
      have h2 := List.mem_of_find?_eq_some hf
      simp only [Bool.and_eq_true, bne_iff_ne, ne_eq, List.contains_iff_mem] at h1
      simp only [Option.getD_some, h1.1.1, if_false]
      obtain ⟨q, hq, _⟩ := hcon.vertexPolygon e.1 start hstart o h2 h1.1.1
      have holt := (List.getElem?_eq_some_iff.1 hq).1
      obtain ⟨r, hr⟩ := hb.ok o.toNat (by rw [hb.parLen]; exact holt)
      rw [ufFind_root hr, res_bind_ok]
      split
      · exact ⟨_, rfl⟩
      · have hol : o.toNat < st.polygons.length := by rw [hb.polyLen]; exact holt
        rw [idx_eq_ok.2 (List.getElem?_eq_getElem hol), res_bind_ok]
        have hX := hpoly _ (List.getElem_mem hol)
        have hY := hpoly _ (List.mem_of_getElem? hp)
        have l1 := List.length_pos_iff.2 hX.1
        have l2 := List.length_pos_iff.2 hY.1
        rw [if_neg (by omega)]
        obtain ⟨cs, hcs⟩ := coordsOf_ok (l := l)
          (vs := joinVertices Y.vertices st.polygons[o.toNat].vertices e) (by
            intro v hv
            rcases mem_join hv with hv | hv
            · exact hY.2 v hv
            · exact hX.2 v hv)
        rw [hcs, res_bind_ok]
        split
        · obtain ⟨par', he, -⟩ := ufUnion_root hi hr
          rw [he]
          exact ⟨_, rfl⟩
        · exact ⟨_, rfl⟩
  · exact ⟨_, rfl⟩

theorem mergeOne_ok {geo : Geo K} {l : Layer K} (hcon : l.Consistent)
    (hn : ∀ p ∈ l.polygons, p.vertices.Nodup) (h3 : ∀ p ∈ l.polygons, 3 ≤ p.vertices.length)
    {i : Nat} {todo : List Nat} (hilt : i < l.polygons.length) (hnot : i ∉ todo) {st : MergeState}
    (h : MSafe l (i :: todo) st) : ∃ st', l.mergeOne geo st i = .ok st' ∧ MSafe l todo st' := by
  have hok : Safe (l.mergeOne geo st i) := by
    unfold Layer.mergeOne
    obtain ⟨r, hr⟩ := h.base.ok i (by rw [h.base.parLen]; exact hilt)
    rw [ufFind_root hr, res_bind_ok]
    split
    · exact ⟨_, rfl⟩
    · rename_i hri
      simp only [ne_eq, not_not] at hri
      subst hri
      have hil : r < st.polygons.length := by rw [h.base.polyLen]; exact hilt
      have hp := List.getElem?_eq_getElem hil
      rw [idx_eq_ok.2 hp, res_bind_ok]
      refine safe_bind (safe_edgesIndex (h.poly _ (List.getElem_mem hil)).1) (fun es _ => ?_)
      refine safe_bind (safe_findFirst es (fun e _ => ?_)) (fun _ _ => safe_ok _)
      exact ⟨mergeEdge_ok hcon h.base h.poly hr hp e⟩
  obtain ⟨st', he⟩ := hok
  refine ⟨st', he, ?_⟩
  have hs := mergeOne_step he
  have hb' := hs.base h.base
  cases hs with
  | skip => exact ⟨h.base, fun j hj => h.todo j (by simp [hj]), h.poly⟩
  | @merge a b Y X o start stop cs par' hi hp hYe hstart hstop ho1 ho2 hoM hoi ho hX hcs hconv hl hr =>
    have hin : i < st.polygons.length := (List.getElem?_eq_some_iff.1 hp).1
    have hYm : Y ∈ l.polygons := List.mem_of_getElem? (by rw [← h.todo i (by simp)]; exact hp)
    refine ⟨hb', ?_, ?_⟩
    · intro j hj
      have hji : j ≠ i := by rintro rfl; exact hnot hj
      simp only [set_get? hin, hji, if_false]
      exact h.todo j (by simp [hj])
    · intro p hpm
      rcases List.mem_or_eq_of_mem_set hpm with hpm | rfl
      · exact h.poly p hpm
      · constructor
        · apply join_ne_nil
          · obtain ⟨k, _, _, h2⟩ := hYe; exact List.mem_of_getElem? h2
          · exact isEdge_ne (hn Y hYm) (h3 Y hYm) hYe
        · intro v hv
          rcases mem_join hv with hv | hv
          · exact (h.poly Y (List.mem_of_getElem? hp)).2 v hv
          · exact (h.poly X (List.mem_of_getElem? hX)).2 v hv

theorem foldlM_todo_ok {σ : Type} {f : σ → Nat → Res σ} (P : List Nat → σ → Prop) {l : List Nat} {s : σ}
    (hn : l.Nodup) (h0 : P l s)
    (hstep : ∀ s a t, a ∈ l → a ∉ t → P (a :: t) s → ∃ s', f s a = .ok s' ∧ P t s') :
    ∃ s', l.foldlM f s = .ok s' ∧ P [] s' := by
  induction l generalizing s with
  | nil => exact ⟨s, rfl, h0⟩
  | cons a l ih =>
    rw [List.nodup_cons] at hn
    obtain ⟨s1, h1, hp⟩ := hstep s a l (List.mem_cons_self ..) hn.1 h0
    obtain ⟨s', h2, hp'⟩ := ih hn.2 hp (fun s b t hb => hstep s b t (List.mem_cons_of_mem _ hb))
    exact ⟨s', by rw [List.foldlM_cons, h1]; exact h2, hp'⟩

theorem mergePolygons_total {geo : Geo K} {l : Layer K} (hcon : l.Consistent)
    (hn : ∀ p ∈ l.polygons, p.vertices.Nodup) (h3 : ∀ p ∈ l.polygons, 3 ≤ p.vertices.length)
    (hv32 : l.vertices.length ≤ 2 ^ 32)
    (hnan : ∀ p ∈ l.polygons, ∀ cs, l.coordsOf p.vertices = .ok cs → Scalar.isNan (geo.area cs) = false) :
    ∃ l' b, l.mergePolygons geo = .ok (l', b) := by
  have hcon' : l.unbake.Consistent := ⟨hcon.sized, hcon.polygonVertex, hcon.vertexPolygon⟩
  have hrange : ∀ p ∈ l.polygons, ∀ v ∈ p.vertices, v.toNat < l.vertices.length := by
    intro p hp v hv
    obtain ⟨k, hk⟩ := List.mem_iff_getElem?.1 hp
    obtain ⟨vx, hvx, _⟩ := hcon.polygonVertex k p hk v hv
    exact (List.getElem?_eq_some_iff.1 hvx).1
  have hord : Safe (l.unbake.mergeOrder geo) := by
    unfold Layer.mergeOrder
    refine safe_bind (safe_mapM _ (fun x hx => safe_bind (coordsOf_ok (l := l.unbake) (hrange x.1 ?_))
      (fun _ _ => safe_ok _))) (fun areas ha => ?_)
    · obtain ⟨_, _, h2⟩ := List.mem_zipIdx hx
      rw [h2]
      exact List.getElem_mem _
    · rw [if_neg]
      · exact safe_ok _
      · simp only [Bool.and_eq_true, not_and, Bool.not_eq_true, List.any_eq_false]
        intro _ x hx
        rw [mapM_ok_iff] at ha
        obtain ⟨y, hy, hyx⟩ : ∃ y ∈ l.polygons.zipIdx, (do
            let cs ← l.unbake.coordsOf y.1.vertices
            .ok (y.2, geo.area cs) : Res (Nat × K)) = .ok x := by
          clear * - ha hx
          revert hx
          have ha' : List.Forall₂ (fun a b => (do
            let cs ← l.unbake.coordsOf a.1.vertices
            .ok (a.2, geo.area cs) : Res (Nat × K)) = .ok b) l.polygons.zipIdx areas := ha
          generalize l.polygons.zipIdx = z at ha'
          clear ha
          intro hx
          induction ha' with
          | nil => simp at hx
          | cons h1 _ ih =>
            rcases List.mem_cons.1 hx with rfl | hx
            · exact ⟨_, by simp, h1⟩
            · obtain ⟨y, hy, h⟩ := ih hx
              exact ⟨y, by simp [hy], h⟩
        rw [bind_eq_ok] at hyx
        obtain ⟨cs, hcs, hyx⟩ := hyx
        simp only [Except.ok.injEq] at hyx
        subst hyx
        obtain ⟨_, _, h2⟩ := List.mem_zipIdx hy
        have := hnan y.1 (by rw [h2]; exact List.getElem_mem _) cs hcs
        simp [this]
  obtain ⟨order, ho⟩ := hord
  have hperm : order.Perm (List.range l.polygons.length) := mergeOrder_perm ho
  obtain ⟨st, hst, hsafe⟩ := foldlM_todo_ok (f := l.unbake.mergeOne geo) (MSafe l.unbake)
    (s := { polygons := l.polygons, parent := ufNew l.polygons.length })
    (hperm.nodup_iff.2 List.nodup_range)
    ⟨MBase.init _, fun _ _ => rfl, fun p hp => ⟨by
      have := h3 p hp
      intro he; rw [he] at this; simp at this, hrange p hp⟩⟩
    (fun s a t ha hnot h => mergeOne_ok hcon' hn h3
      (List.mem_range.1 (hperm.mem_iff.1 ha)) hnot h)
  have hb : MBase l.polygons.length st := hsafe.base
  obtain ⟨cst, hc, hinv⟩ := compact_ok (par := st.parent) (P := st.polygons)
    (by rw [hb.polyLen, hb.parLen]) hb.ok
  rw [hb.polyLen] at hc hinv
  have hvs : Safe (l.vertices.mapM (mergeVertex cst.new)) := by
    refine safe_mapM _ (fun v hv => safe_bind (safe_mapM _ (fun id hid => ?_)) (fun _ _ => safe_ok _))
    unfold renumber
    split
    · exact safe_ok _
    · rename_i hm
      refine safe_bind (safe_idx ?_) (fun _ _ => safe_ok _)
      rw [hinv.newLen, hb.polyLen]
      obtain ⟨k, hk⟩ := List.mem_iff_getElem?.1 hv
      have hk32 : (UInt32.ofNat k).toNat = k := by
        apply UInt32.toNat_ofNat_of_lt'
        have := (List.getElem?_eq_some_iff.1 hk).1
        simp only [UInt32.size]
        omega
      obtain ⟨q, hq, _⟩ := hcon.vertexPolygon (UInt32.ofNat k) v (by rw [hk32]; exact hk) id hid hm
      exact (List.getElem?_eq_some_iff.1 hq).1
  obtain ⟨vs, hvs⟩ := hvs
  refine ⟨{ l.unbake with polygons := cst.polygons.take cst.kept, vertices := vs },
    decide (cst.new.length ≠ cst.kept), ?_⟩
  · unfold Layer.mergePolygons
    simp only
    rw [ho, res_bind_ok]
    have e1 : l.unbake.polygons = l.polygons := rfl
    have e2 : l.unbake.vertices = l.vertices := rfl
    rw [e1, hst, res_bind_ok, hc, res_bind_ok, if_neg (by rw [hinv.polyLen, hb.polyLen]; have := hinv.keptLe; omega),
      e2, hvs, res_bind_ok]

end Polyanya
