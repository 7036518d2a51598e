import Verif.Proofs.Merge
import Verif.Proofs.Cyclic
import Verif.Proofs.Ids
import Verif.Spec.Merge
/-
The invariant of the merging loop on conforming layers.
-/

namespace Polyanya

variable {K : Type} [Scalar K]

theorem nodup_get?_inj {α : Type} {vs : List α} (hn : vs.Nodup) {i j : Nat} {a : α} (hi : vs[i]? = some a)
    (hj : vs[j]? = some a) : i = j := by
  obtain ⟨h1, e1⟩ := List.getElem?_eq_some_iff.1 hi
  obtain ⟨h2, e2⟩ := List.getElem?_eq_some_iff.1 hj
  exact (List.Nodup.getElem_inj_iff (hi := h1) (hj := h2) hn).1 (by rw [e1, e2])

theorem succ_mod {i n : Nat} (hi : i < n) : (i + 1) % n = if i + 1 = n then 0 else i + 1 := by
  split
  · rename_i h; rw [h, Nat.mod_self]
  · exact Nat.mod_eq_of_lt (by omega)

theorem isEdge_ne {vs : List UInt32} {a b : UInt32} (hn : vs.Nodup) (h3 : 3 ≤ vs.length)
    (h : IsEdge vs a b) : a ≠ b := by
  rintro rfl
  obtain ⟨i, hi, h1, h2⟩ := h
  have := nodup_get?_inj hn h1 h2
  rw [succ_mod hi] at this
  split at this <;> omega

theorem isEdge_asymm {vs : List UInt32} {a b : UInt32} (hn : vs.Nodup) (h3 : 3 ≤ vs.length)
    (h : IsEdge vs a b) : ¬ IsEdge vs b a := by
  rintro ⟨j, hj, h3', h4⟩
  obtain ⟨i, hi, h1, h2⟩ := h
  have e1 := nodup_get?_inj hn h2 h3'
  have e2 := nodup_get?_inj hn h4 h1
  rw [succ_mod hi] at e1
  rw [succ_mod hj] at e2
  split at e1 <;> split at e2 <;> omega

/-- The original polygons that are merged into the class with root `r`. -/
def InClass (l : Layer K) (par : List Nat) (r : Nat) (q : Polygon) : Prop :=
  ∃ m, Root par m r ∧ l.polygons[m]? = some q

structure MPoly (l : Layer K) (par : List Nat) (r : Nat) (p : Polygon) : Prop where
  nodup : p.vertices.Nodup
  three : 3 ≤ p.vertices.length
  union : IsUnion p (InClass l par r)

structure MInv (l : Layer K) (todo : List Nat) (st : MergeState) : Prop where
  base : MBase l.polygons.length st
  todo : ∀ i ∈ todo, st.polygons[i]? = l.polygons[i]?
  poly : ∀ r p, Root st.parent r r → st.polygons[r]? = some p → MPoly l st.parent r p
  single : ∀ r, Root st.parent r r → (∀ m, Root st.parent m r → m = r) → st.polygons[r]? = l.polygons[r]?

theorem MInv.init {l : Layer K} (hc : l.Conforming) (todo : List Nat) :
    MInv l todo { polygons := l.polygons, parent := ufNew l.polygons.length } where
  base := MBase.init _
  todo := fun _ _ => rfl
  single := fun _ _ _ => rfl
  poly := by
    intro r p hr hp
    have hcls : ∀ q, InClass l (ufNew l.polygons.length) r q ↔ q = p := by
      intro q
      constructor
      · rintro ⟨m, hm, hq⟩
        have := hm.unique (ufNew_root (by simpa [ufNew] using hm.lt))
        subst this
        simp_all
      · rintro rfl
        exact ⟨r, hr, hp⟩
    have hmem : p ∈ l.polygons := List.mem_of_getElem? hp
    refine ⟨hc.nodup p hmem, hc.three p hmem, ?_, ?_⟩
    · intro v
      simp [hcls]
    · intro a b
      simp only [hcls, exists_eq_left]
      constructor
      · intro h
        exact ⟨h, isEdge_asymm (hc.nodup p hmem) (hc.three p hmem) h⟩
      · exact fun h => h.1

theorem coordsOf_nodup {l : Layer K} : ∀ {vs : List UInt32} {cs : List (Vec2 K)}, l.coordsOf vs = .ok cs →
    cs.Nodup → vs.Nodup := by
  intro vs cs h hn
  unfold Layer.coordsOf at h
  rw [mapM_ok_iff] at h
  induction h with
  | nil => exact List.nodup_nil
  | @cons v c vs cs h1 h2 ih =>
    rw [List.nodup_cons] at hn ⊢
    refine ⟨?_, ih hn.2⟩
    intro hv
    apply hn.1
    obtain ⟨i, hi, hiv⟩ := List.mem_iff_getElem.1 hv
    have hlen := h2.length_eq
    have := (List.forall₂_iff_get.1 h2).2 i hi (by omega)
    simp only [List.get_eq_getElem, hiv] at this
    rw [h1] at this
    cases this
    exact List.getElem_mem _

/-- The classes after joining class `o` to class `i`. -/
theorem join_roots {par par' : List Nat} (hok : UfOk par) (hl : par'.length = par.length) {i o : Nat}
    (hr : ∀ z s, Root par z s → Root par' z (if s = o then i else s)) (z s' : Nat) :
    Root par' z s' ↔ ∃ s, Root par z s ∧ s' = if s = o then i else s := by
  constructor
  · intro h
    obtain ⟨s, hs⟩ := hok z (by rw [← hl]; exact h.lt)
    exact ⟨s, hs, h.unique (hr z s hs)⟩
  · rintro ⟨s, hs, rfl⟩
    exact hr z s hs

theorem MStep.inv {geo : Geo K} {l : Layer K} (hg : geo.RejectsRepeats) (hcon : l.Consistent)
    (hc : l.Conforming) {i : Nat} {todo : List Nat} {st st' : MergeState} (hnot : i ∉ todo)
    (hs : MStep geo l i st st') (h : MInv l (i :: todo) st) : MInv l todo st' := by
  have hbase' := hs.base h.base
  cases hs with
  | skip => exact ⟨h.base, fun j hj => h.todo j (by simp [hj]), h.poly, h.single⟩
  | @merge a b Y X o start stop cs par' hi hp hYe hstart hstop ho1 ho2 hoM hoi ho hX hcs hconv hl hr =>
    have hYo : l.polygons[i]? = some Y := by rw [← h.todo i (by simp)]; exact hp
    have hilt : i < l.polygons.length := (List.getElem?_eq_some_iff.1 hYo).1
    have hin : i < st.polygons.length := (List.getElem?_eq_some_iff.1 hp).1
    have hsz := hcon.sized
    have hoi' : o.toNat ≠ i := by
      intro he
      apply hoi
      rw [← he]
      exact UInt32.ofNat_toNat.symm
    obtain ⟨Q, hQ, haQ⟩ := hcon.vertexPolygon a start hstart o ho1 hoM
    obtain ⟨Q', hQ', hbQ⟩ := hcon.vertexPolygon b stop hstop o ho2 hoM
    obtain rfl : Q = Q' := by rw [hQ] at hQ'; exact Option.some.inj hQ'
    have hQe : IsEdge Q.vertices b a := hc.opposite i o.toNat Y Q a b hYo hQ (Ne.symm hoi') hYe haQ hbQ
    have mY := h.poly i Y hi hp
    have mX := h.poly o.toNat X ho hX
    have hab : a ≠ b := isEdge_ne mY.nodup mY.three hYe
    have hXe : IsEdge X.vertices b a := by
      rw [mX.union.edges]
      refine ⟨⟨Q, ⟨o.toNat, ho, hQ⟩, hQe⟩, ?_⟩
      rintro ⟨R, ⟨m, hm, hR⟩, hRe⟩
      have hRmem := List.mem_of_getElem? hR
      have hmi : i ≠ m := by
        rintro rfl
        exact hoi' (hm.unique hi)
      have := hc.opposite i m Y R a b hYo hR hmi hYe (by
        obtain ⟨k, _, h1, _⟩ := hRe; exact List.mem_of_getElem? h1) (by
        obtain ⟨k, _, _, h1⟩ := hRe; exact List.mem_of_getElem? h1)
      exact isEdge_asymm (hc.nodup R hRmem) (hc.three R hRmem) hRe this
    obtain ⟨je, jv, w, w', hJ, hlY, hlX⟩ := join_spec mY.nodup mX.nodup hab hYe hXe
    have hJn : (joinVertices Y.vertices X.vertices (a, b)).Nodup := coordsOf_nodup hcs (hg _ hconv)
    generalize hJd : joinVertices Y.vertices X.vertices (a, b) = J at *
    have hroots := join_roots h.base.ok hl hr
    -- the classes
    have hcls_i : ∀ q, InClass l par' i q ↔ InClass l st.parent i q ∨ InClass l st.parent o.toNat q := by
      intro q
      constructor
      · rintro ⟨m, hm, hq⟩
        obtain ⟨s, hs, hse⟩ := (hroots m i).1 hm
        split at hse
        · subst_vars; exact .inr ⟨m, hs, hq⟩
        · subst_vars; exact .inl ⟨m, hs, hq⟩
      · rintro (⟨m, hm, hq⟩ | ⟨m, hm, hq⟩)
        · exact ⟨m, (hroots m i).2 ⟨i, hm, by simp [Ne.symm hoi']⟩, hq⟩
        · exact ⟨m, (hroots m i).2 ⟨_, hm, by simp⟩, hq⟩
    have hroot_r : ∀ r, r ≠ i → Root par' r r → ∀ m, Root par' m r ↔ Root st.parent m r := by
      intro r hri hrr m
      rw [hroots]
      constructor
      · rintro ⟨s, hs, hse⟩
        split at hse
        · exact absurd hse hri
        · subst hse; exact hs
      · intro hm
        refine ⟨r, hm, ?_⟩
        split
        · rename_i hro
          subst hro
          obtain ⟨s, hs, hse⟩ := (hroots _ _).1 hrr
          split at hse
          · exact hse
          · rename_i hne
            exact absurd (hs.unique ho) hne
        · rfl
    -- vertices and edges of the joined polygon
    have hmemJ : ∀ v, v ∈ J ↔ v ∈ Y.vertices ∨ v ∈ X.vertices := by
      intro v
      have h1 := jv.mem_iff (a := v)
      simp only [List.mem_append] at h1
      rw [← h1]
      constructor
      · exact .inl
      · rintro (h | h)
        · exact h
        · simp only [List.mem_cons, List.not_mem_nil, or_false] at h
          rcases h with rfl | rfl <;> simp [hJ]
    have hshared : ∀ v, v ∈ Y.vertices → v ∈ X.vertices → v = a ∨ v = b := by
      intro v hY hX
      by_contra hne
      have h1 := jv.count_eq v
      rw [List.count_append, List.count_append] at h1
      have h2 : List.count v [a, b] = 0 := by
        rw [List.count_eq_zero]; simpa using hne
      have h3 : List.count v J ≤ 1 := List.nodup_iff_count_le_one.1 hJn v
      have h4 : 0 < List.count v Y.vertices := List.count_pos_iff.2 hY
      have h5 : 0 < List.count v X.vertices := List.count_pos_iff.2 hX
      omega
    have hJ3 : 3 ≤ J.length := by
      have := mY.three
      have := mX.three
      rw [hJ]; simp; omega
    have hedgeYX : ∀ c d, IsEdge J c d ∨ (c, d) = (a, b) ∨ (c, d) = (b, a) ↔
        IsEdge Y.vertices c d ∨ IsEdge X.vertices c d := by
      intro c d
      have h1 := je.mem_iff (a := (c, d))
      simp only [List.mem_append, mem_cycEdges, List.mem_cons, List.not_mem_nil, or_false] at h1
      exact h1
    have hwne : w ≠ [] := by
      rintro rfl
      have := mY.three
      simp at hlY; omega
    have hw'ne : w' ≠ [] := by
      rintro rfl
      have := mX.three
      simp at hlX; omega
    have hcount : ∀ e, List.count e (cycEdges J) + List.count e [(a, b), (b, a)] =
        List.count e (cycEdges Y.vertices) + List.count e (cycEdges X.vertices) := by
      intro e
      rw [← List.count_append, je.count_eq, List.count_append]
    -- the edges (a,b), (b,a) are gone
    have hcycnd : ∀ {vs : List UInt32}, vs.Nodup → (cycEdges vs).Nodup := by
      intro vs hn
      cases vs with
      | nil => simp [cycEdges]
      | cons v vs =>
        apply List.Nodup.of_map Prod.fst
        have : (cycEdges (v :: vs)).map Prod.fst = v :: vs := by
          show ((v :: vs ++ [v]).zip (v :: vs ++ [v]).tail).map Prod.fst = v :: vs
          have e : (v :: vs ++ [v]).tail = (vs ++ [v]) ++ [] := by simp
          rw [e, List.zip_append (by simp)]
          simp [List.map_fst_zip]
        rw [this]; exact hn
    have hgone1 : ¬ IsEdge J a b := by
      intro hcon
      have h1 : 0 < List.count (a, b) (cycEdges J) := List.count_pos_iff.2 (mem_cycEdges.2 hcon)
      have h2 := hcount (a, b)
      have h3 : List.count (a, b) (cycEdges Y.vertices) ≤ 1 :=
        List.nodup_iff_count_le_one.1 (hcycnd mY.nodup) _
      have h4 : List.count (a, b) (cycEdges X.vertices) = 0 := by
        rw [List.count_eq_zero, mem_cycEdges]
        exact fun hh => isEdge_asymm mX.nodup mX.three hh hXe
      have h5 : 0 < List.count (a, b) [(a, b), (b, a)] := List.count_pos_iff.2 (by simp)
      omega
    have hgone2 : ¬ IsEdge J b a := by
      intro hcon
      have h1 : 0 < List.count (b, a) (cycEdges J) := List.count_pos_iff.2 (mem_cycEdges.2 hcon)
      have h2 := hcount (b, a)
      have h3 : List.count (b, a) (cycEdges X.vertices) ≤ 1 :=
        List.nodup_iff_count_le_one.1 (hcycnd mX.nodup) _
      have h4 : List.count (b, a) (cycEdges Y.vertices) = 0 := by
        rw [List.count_eq_zero, mem_cycEdges]
        exact fun hh => isEdge_asymm mY.nodup mY.three hh hYe
      have h5 : 0 < List.count (b, a) [(a, b), (b, a)] := List.count_pos_iff.2 (by simp)
      omega
    have hvY : ∀ q, InClass l st.parent i q → ∀ v ∈ q.vertices, v ∈ Y.vertices :=
      fun q hq v hv => (mY.union.vertices v).2 ⟨q, hq, hv⟩
    have hvX : ∀ q, InClass l st.parent o.toNat q → ∀ v ∈ q.vertices, v ∈ X.vertices :=
      fun q hq v hv => (mX.union.vertices v).2 ⟨q, hq, hv⟩
    have hemem : ∀ {vs : List UInt32} {c d : UInt32}, IsEdge vs c d → c ∈ vs ∧ d ∈ vs := by
      rintro vs c d ⟨k, _, h1, h2⟩
      exact ⟨List.mem_of_getElem? h1, List.mem_of_getElem? h2⟩
    refine ⟨hbase', ?_, ?_, ?_⟩
    · intro j hj
      have hji : j ≠ i := by rintro rfl; exact hnot hj
      simp only [set_get? hin, hji, if_false]
      exact h.todo j (by simp [hj])
    · intro r p hrr hpr
      simp only [set_get? hin] at hpr hrr ⊢
      by_cases hri : r = i
      · subst hri
        simp only [if_true, Option.some.injEq] at hpr
        subst hpr
        refine ⟨hJn, hJ3, ?_, ?_⟩
        · intro v
          simp only [hmemJ, mY.union.vertices, mX.union.vertices, hcls_i, or_and_right, exists_or]
        · intro c d
          have hex : ∀ c d, (∃ q, InClass l par' r q ∧ IsEdge q.vertices c d) ↔
              (∃ q, InClass l st.parent r q ∧ IsEdge q.vertices c d) ∨
              (∃ q, InClass l st.parent o.toNat q ∧ IsEdge q.vertices c d) := by
            intro c d
            simp only [hcls_i, or_and_right, exists_or]
          rw [hex, hex, not_or]
          constructor
          · intro hJe
            have hcd : ¬ ((c, d) = (a, b) ∨ (c, d) = (b, a)) := by
              rintro (h | h) <;> (cases h; first | exact hgone1 hJe | exact hgone2 hJe)
            rcases (hedgeYX c d).1 (.inl hJe) with hY | hX
            · have hYY := (mY.union.edges c d).1 hY
              refine ⟨.inl hYY.1, hYY.2, ?_⟩
              rintro ⟨q, hq, hqe⟩
              have m1 := hemem hY
              have m2 := hemem hqe
              have s1 := hshared c m1.1 (hvX q hq c m2.2)
              have s2 := hshared d m1.2 (hvX q hq d m2.1)
              have hne := isEdge_ne mY.nodup mY.three hY
              apply hcd
              rcases s1 with rfl | rfl <;> rcases s2 with rfl | rfl <;> simp_all
            · have hXX := (mX.union.edges c d).1 hX
              refine ⟨.inr hXX.1, ?_, hXX.2⟩
              rintro ⟨q, hq, hqe⟩
              have m1 := hemem hX
              have m2 := hemem hqe
              have s1 := hshared c (hvY q hq c m2.2) m1.1
              have s2 := hshared d (hvY q hq d m2.1) m1.2
              have hne := isEdge_ne mX.nodup mX.three hX
              apply hcd
              rcases s1 with rfl | rfl <;> rcases s2 with rfl | rfl <;> simp_all
          · rintro ⟨hmem, hn1, hn2⟩
            have hYX : IsEdge Y.vertices c d ∨ IsEdge X.vertices c d := by
              rcases hmem with hm | hm
              · exact .inl ((mY.union.edges c d).2 ⟨hm, hn1⟩)
              · exact .inr ((mX.union.edges c d).2 ⟨hm, hn2⟩)
            rcases (hedgeYX c d).2 hYX with h | h | h
            · exact h
            · cases h
              exact absurd ⟨Q, ⟨o.toNat, ho, hQ⟩, hQe⟩ hn2
            · cases h
              exact absurd ⟨Y, ⟨_, hi, hYo⟩, hYe⟩ hn1
      · simp only [hri, if_false] at hpr
        have hrr' := (hroot_r r hri hrr r).1 hrr
        have := h.poly r p hrr' hpr
        refine ⟨this.nodup, this.three, ?_⟩
        have hcls : InClass l par' r = InClass l st.parent r := by
          funext q
          unfold InClass
          simp only [hroot_r r hri hrr]
        rw [hcls]
        exact this.union
    · intro r hrr hone
      simp only [set_get? hin] at hrr hone ⊢
      by_cases hri : r = i
      · subst hri
        have := hone o.toNat ((hroots _ _).2 ⟨_, ho, by simp⟩)
        exact absurd this hoi'
      · simp only [hri, if_false]
        exact h.single r ((hroot_r r hri hrr r).1 hrr) (fun m hm => hone m ((hroot_r r hri hrr m).2 hm))

/-- A loop over different indices, with an invariant about the remaining ones. -/
theorem foldlM_todo {σ : Type} {f : σ → Nat → Res σ} (P : List Nat → σ → Prop) {l : List Nat} {s s' : σ}
    (hn : l.Nodup) (h0 : P l s) (hstep : ∀ s a t s', a ∉ t → P (a :: t) s → f s a = .ok s' → P t s')
    (h : l.foldlM f s = .ok s') : P [] s' := by
  induction l generalizing s with
  | nil =>
    simp only [List.foldlM_nil, res_pure, Except.ok.injEq] at h
    exact h ▸ h0
  | cons a l ih =>
    rw [List.foldlM_cons, bind_eq_ok] at h
    obtain ⟨s1, h1, h2⟩ := h
    rw [List.nodup_cons] at hn
    exact ih hn.2 (hstep s a l s1 hn.1 h0 h1) h2

theorem mergeOrder_perm {geo : Geo K} {l : Layer K} {order : List Nat} (h : l.mergeOrder geo = .ok order) :
    order.Perm (List.range l.polygons.length) := by
  unfold Layer.mergeOrder at h
  rw [bind_eq_ok] at h
  obtain ⟨areas, ha, h⟩ := h
  split at h
  · simp at h
  · simp only [Except.ok.injEq] at h
    subst h
    refine ((List.perm_insertionSort _ areas).map _).trans ?_
    have : areas.map (·.1) = l.polygons.zipIdx.map (·.2) := by
      rw [mapM_ok_iff] at ha
      clear * - ha
      generalize l.polygons.zipIdx = z at ha
      induction ha with
      | nil => rfl
      | cons h1 _ ih =>
        rw [bind_eq_ok] at h1
        obtain ⟨cs, _, h1⟩ := h1
        simp only [Except.ok.injEq] at h1
        simp [← h1, ih]
    rw [this]
    have : l.polygons.zipIdx.map (·.2) = List.range l.polygons.length := by
      rw [List.zipIdx_map_snd, List.range_eq_range']
    rw [this]

theorem mergeLoop_inv {geo : Geo K} {l : Layer K} (hg : geo.RejectsRepeats) (hcon : l.Consistent)
    (hc : l.Conforming) {order : List Nat} {st : MergeState} (ho : l.mergeOrder geo = .ok order)
    (h : order.foldlM (l.mergeOne geo) { polygons := l.polygons, parent := ufNew l.polygons.length } =
      .ok st) : MInv l [] st :=
  foldlM_todo (MInv l) ((mergeOrder_perm ho).nodup_iff.2 List.nodup_range) (MInv.init hc _)
    (fun _ _ _ _ hnot hinv hs => (mergeOne_step hs).inv hg hcon hc hnot hinv) h

end Polyanya
