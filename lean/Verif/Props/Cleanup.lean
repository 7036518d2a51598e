import Verif.Spec.Cleanup
import Verif.Props.Merging
/-
C23: reordering the neighbours of all vertices. C28: removing useless vertices.
-/

namespace Polyanya

variable {K : Type} [Scalar K]

/-! ### Safety -/

theorem polygonAt_iff {m : Mesh K} {id : UInt32} {l : Layer K} {p : Polygon} :
    m.polygonAt id = .ok (l, p) ↔ HasPolygon m id l p := by
  unfold Mesh.polygonAt HasPolygon
  simp only [bind_eq_ok, idx_eq_ok, layerOf_toNat, polygonOf_toNat, Except.ok.injEq, Prod.mk.injEq]
  constructor
  · rintro ⟨a, h1, b, h2, rfl, rfl⟩; exact ⟨h1, h2⟩
  · rintro ⟨h1, h2⟩; exact ⟨l, h1, p, h2, rfl, rfl⟩

theorem hasPolygon_unique {m : Mesh K} {id : UInt32} {l l' : Layer K} {p p' : Polygon}
    (h : HasPolygon m id l p) (h' : HasPolygon m id l' p') : l = l' ∧ p = p' := by
  have h1 := h.1.symm.trans h'.1
  simp only [Option.some.injEq] at h1
  subst h1
  have h2 := h.2.symm.trans h'.2
  simp only [Option.some.injEq] at h2
  exact ⟨rfl, h2⟩

theorem angleKey_spec {m : Mesh K} {vc : Vec2 K} {id : UInt32} {k : Int} :
    m.angleKey vc id = .ok k ↔ AngleFrom m vc id k := by
  unfold Mesh.angleKey AngleFrom Layer.coordsOf
  simp only [bind_eq_ok, mapM_ok_iff, idx_eq_ok, Except.ok.injEq]
  constructor
  · rintro ⟨⟨l, p⟩, hp, cs, hcs, rfl⟩
    refine ⟨l, p, cs, polygonAt_iff.1 hp, ?_, rfl⟩
    exact hcs
  · rintro ⟨l, p, cs, hp, hcs, hk⟩
    exact ⟨(l, p), polygonAt_iff.2 hp, cs, hcs, hk.symm⟩

theorem mem_of_has {m : Mesh K} {id : UInt32} {l : Layer K} {p : Polygon} (h : HasPolygon m id l p) :
    l ∈ m.layers ∧ p ∈ l.polygons := ⟨List.mem_of_getElem? h.1, List.mem_of_getElem? h.2⟩

theorem angleKey_safe {m : Mesh K} (hm : m.RefsInRange) (vc : Vec2 K) {id : UInt32}
    (h : ∃ l p, HasPolygon m id l p) : Safe (m.angleKey vc id) := by
  obtain ⟨l, p, h⟩ := h
  unfold Mesh.angleKey
  rw [polygonAt_iff.2 h, res_bind_ok]
  exact safe_bind (coordsOf_ok (hm.vertices l (mem_of_has h).1 p (mem_of_has h).2)) (fun _ _ => safe_ok _)

theorem atVertex_safe {l : Layer K} {vc : Vec2 K} {v : UInt32} (h : v.toNat < l.vertices.length) :
    Safe (l.atVertex vc v) := safe_bind (safe_idx h) (fun _ _ => safe_ok _)

theorem afterMatch_ok {isAt : UInt32 → Res Bool} : ∀ {vs : List UInt32}, (∀ v ∈ vs, Safe (isAt v)) →
    ∃ r, afterMatch isAt vs = .ok r ∧ ∀ w, r = some w → w ∈ vs
  | [], _ => ⟨none, rfl, by simp⟩
  | v :: vs, h => by
    obtain ⟨b, hb⟩ := (h v (by simp)).ex
    unfold afterMatch
    rw [hb, res_bind_ok]
    cases b with
    | true =>
      refine ⟨vs.head?, rfl, fun w hw => List.mem_cons_of_mem _ ?_⟩
      exact List.mem_of_mem_head? hw
    | false =>
      obtain ⟨r, hr, hw⟩ := afterMatch_ok (vs := vs) (fun x hx => h x (List.mem_cons_of_mem _ hx))
      exact ⟨r, by simpa using hr, fun w h => List.mem_cons_of_mem _ (hw w h)⟩

theorem gapBetween_safe {m : Mesh K} (hm : m.RefsInRange) (vc : Vec2 K) {p q : UInt32}
    (hp : ∃ l x, HasPolygon m p l x) (hq : ∃ l x, HasPolygon m q l x) : Safe (m.gapBetween vc (p, q)) := by
  obtain ⟨l, x, hp⟩ := hp
  obtain ⟨l', x', hq⟩ := hq
  have hx := hm.vertices l (mem_of_has hp).1 x (mem_of_has hp).2
  have hx' := hm.vertices l' (mem_of_has hq).1 x' (mem_of_has hq).2
  unfold Mesh.gapBetween
  simp only
  rw [layerOf_toNat, layerOf_toNat, polygonOf_toNat, polygonOf_toNat, idx_eq_ok.2 hp.1, idx_eq_ok.2 hq.1,
    res_bind_ok, res_bind_ok, idx_eq_ok.2 hp.2, res_bind_ok]
  obtain ⟨r, hr, hr'⟩ := afterMatch_ok (isAt := l.atVertex vc) (vs := x.vertices.reverse ++ x.vertices.reverse)
    (fun v hv => atVertex_safe (hx v (by simpa using hv)))
  rw [hr, res_bind_ok]
  cases r with
  | none => exact safe_ok _
  | some a =>
    simp only
    rw [idx_eq_ok.2 hq.2, res_bind_ok]
    obtain ⟨r, hr, hr''⟩ := afterMatch_ok (isAt := l'.atVertex vc) (vs := x'.vertices ++ x'.vertices)
      (fun v hv => atVertex_safe (hx' v (by simpa using hv)))
    rw [hr, res_bind_ok]
    cases r with
    | none => exact safe_ok _
    | some b =>
      exact safe_bind (safe_idx (hx a (by simpa using hr' a rfl))) (fun _ _ =>
        safe_bind (safe_idx (hx' b (by simpa using hr'' b rfl))) (fun _ _ => safe_ok _))

/-! ### Gaps -/

theorem fst_mem_of_windows2_snoc {α : Type} {l : List α} {c a b : α} (h : (a, b) ∈ windows2 (l ++ [c])) : a ∈ l := by
  induction l with
  | nil => simp [windows2] at h
  | cons x l ih =>
    cases l with
    | nil =>
      simp only [List.cons_append, List.nil_append, windows2_cons, windows2_single, List.mem_cons,
        List.not_mem_nil, or_false, Prod.mk.injEq] at h
      simp [h.1]
    | cons y l =>
      simp only [List.cons_append, windows2_cons, List.mem_cons, Prod.mk.injEq] at h
      rcases h with ⟨rfl, -⟩ | h
      · simp
      · exact List.mem_cons_of_mem _ (ih (by simpa [windows2_cons] using h))

/-- The successor in a cyclic list, found by going around twice. -/
theorem afterMatch_cycle {isAt : UInt32 → Res Bool} {vs : List UInt32} {w b : UInt32} (hn : vs.Nodup)
    (hw : ∀ u ∈ vs, isAt u = .ok (decide (u = w))) (he : IsEdge vs w b) :
    afterMatch isAt (vs ++ vs) = .ok (some b) := by
  have skip : ∀ (s t : List UInt32), (∀ u ∈ s, isAt u = .ok false) → afterMatch isAt (s ++ t) = afterMatch isAt t := by
    intro s t hs
    induction s with
    | nil => rfl
    | cons x s ih =>
      rw [List.cons_append, afterMatch, hs x (by simp), res_bind_ok]
      simpa using ih (fun u hu => hs u (List.mem_cons_of_mem _ hu))
  obtain ⟨s, t, rfl⟩ := List.append_of_mem (isEdge_mem he).1
  have hd := List.nodup_append.1 hn
  have hws : w ∉ s := fun h => hd.2.2 w h w (by simp) rfl
  rw [List.append_assoc, skip s _ (fun u hu => by
    rw [hw u (by simp [hu]), decide_eq_false (fun h : u = w => hws (h ▸ hu))])]
  rw [List.cons_append, afterMatch, hw w (by simp), decide_eq_true rfl, res_bind_ok]
  simp only [if_true]
  -- the edge leaving `w`
  rw [isEdge_rotate, List.cons_append, ← mem_cycEdges] at he
  have hwt : w ∉ t ++ s := by
    have h1 := (List.nodup_cons.1 hd.2.1).1
    simp [hws, h1]
  have : (t ++ (s ++ w :: t)).head? = some b := by
    cases hts : t ++ s with
    | nil =>
      rw [hts] at he
      obtain ⟨rfl, rfl⟩ := List.append_eq_nil_iff.1 hts
      simpa [cycEdges, windows2, eq_comm] using he
    | cons y ys =>
      rw [hts] at he hwt
      have h2 : (t ++ (s ++ w :: t)).head? = some y := by
        rw [← List.append_assoc, hts]; rfl
      rw [h2]
      simp only [cycEdges, List.cons_append, windows2_cons, List.mem_cons, Prod.mk.injEq, true_and] at he
      rcases he with rfl | he
      · rfl
      · exfalso
        have := fst_mem_of_windows2_snoc (l := y :: ys) (by simpa using he)
        exact hwt this
  rw [this]

theorem isEdge_reverse {vs : List UInt32} {a b : UInt32} (h : IsEdge vs a b) : IsEdge vs.reverse b a := by
  obtain ⟨i, hi, h1, h2⟩ := h
  have hlt : (i + 1) % vs.length < vs.length := Nat.mod_lt _ (by omega)
  refine ⟨vs.length - 1 - (i + 1) % vs.length, by simp; omega, ?_, ?_⟩
  · rw [List.getElem?_reverse (by omega), ← h2]
    congr 1; omega
  · have : (vs.length - 1 - (i + 1) % vs.length + 1) % vs.reverse.length = vs.length - 1 - i := by
      rw [List.length_reverse]
      by_cases hc : i + 1 < vs.length
      · rw [Nat.mod_eq_of_lt hc, Nat.mod_eq_of_lt (by omega)]; omega
      · have hc : i + 1 = vs.length := by omega
        rw [hc, Nat.mod_self]
        have : vs.length - 1 - 0 + 1 = vs.length := by omega
        rw [this, Nat.mod_self]; omega
    rw [this, List.getElem?_reverse (by omega), ← h1]
    congr 1; omega

theorem isEdge_reverse_iff {vs : List UInt32} {a b : UInt32} : IsEdge vs.reverse b a ↔ IsEdge vs a b :=
  ⟨fun h => by simpa using isEdge_reverse h, isEdge_reverse⟩

theorem isEdge_from {vs : List UInt32} {w : UInt32} (h : w ∈ vs) : ∃ b, IsEdge vs w b := by
  obtain ⟨i, hi, hw⟩ := List.getElem_of_mem h
  have hlt : (i + 1) % vs.length < vs.length := Nat.mod_lt _ (by omega)
  exact ⟨vs[(i + 1) % vs.length], i, hi, by rw [List.getElem?_eq_getElem hi, hw], List.getElem?_eq_getElem hlt⟩

theorem isEdge_to {vs : List UInt32} {w : UInt32} (h : w ∈ vs) : ∃ a, IsEdge vs a w := by
  obtain ⟨a, ha⟩ := isEdge_from (vs := vs.reverse) (w := w) (by simpa using h)
  exact ⟨a, isEdge_reverse_iff.1 ha⟩

theorem onlyAt_at {l : Layer K} {p : Polygon} {vc : Vec2 K} {w : UInt32}
    (hr : ∀ v ∈ p.vertices, v.toNat < l.vertices.length) (h : OnlyAt l p vc w) :
    ∀ u ∈ p.vertices, l.atVertex vc u = .ok (decide (u = w)) := by
  intro u hu
  have hlt := hr u hu
  have := h.2 u hu _ (List.getElem?_eq_getElem hlt)
  unfold Layer.atVertex
  rw [idx_eq_ok.2 (List.getElem?_eq_getElem hlt), res_bind_ok, Except.ok.injEq, Bool.eq_iff_iff, this, decide_eq_true_iff]

theorem gapBetween_spec {m : Mesh K} (hm : m.RefsInRange) {vc : Vec2 K} {id id' : UInt32} {g : Bool}
    (h1 : ∃ l p, HasPolygon m id l p) (h2 : ∃ l p, HasPolygon m id' l p)
    (ht : TouchesOnce m vc id) (ht' : TouchesOnce m vc id') (hg : m.gapBetween vc (id, id') = .ok g) :
    g = false ↔ Adjacent m vc id id' := by
  obtain ⟨l, p, hp⟩ := h1
  obtain ⟨l', p', hp'⟩ := h2
  obtain ⟨hn, w, hw⟩ := ht l p hp
  obtain ⟨hn', w', hw'⟩ := ht' l' p' hp'
  have hr := hm.vertices l (mem_of_has hp).1 p (mem_of_has hp).2
  have hr' := hm.vertices l' (mem_of_has hp').1 p' (mem_of_has hp').2
  have hat := onlyAt_at hr hw
  have hat' := onlyAt_at hr' hw'
  obtain ⟨a, ha⟩ := isEdge_to hw.1
  obtain ⟨b, hb⟩ := isEdge_from hw'.1
  have key1 : ∀ a, IsEdge p.vertices a w →
      afterMatch (l.atVertex vc) (p.vertices.reverse ++ p.vertices.reverse) = .ok (some a) := fun a ha =>
    afterMatch_cycle (List.nodup_reverse.2 hn) (fun u hu => hat u (by simpa using hu)) (isEdge_reverse ha)
  have key2 : ∀ b, IsEdge p'.vertices w' b →
      afterMatch (l'.atVertex vc) (p'.vertices ++ p'.vertices) = .ok (some b) := fun b hb =>
    afterMatch_cycle hn' hat' hb
  have ha' := hr a (isEdge_mem ha).1
  have hb' := hr' b (isEdge_mem hb).2
  unfold Mesh.gapBetween at hg
  simp only at hg
  rw [layerOf_toNat, layerOf_toNat, polygonOf_toNat, polygonOf_toNat, idx_eq_ok.2 hp.1, idx_eq_ok.2 hp'.1,
    res_bind_ok, res_bind_ok, idx_eq_ok.2 hp.2, res_bind_ok, key1 a ha, res_bind_ok] at hg
  simp only at hg
  rw [idx_eq_ok.2 hp'.2, res_bind_ok, key2 b hb, res_bind_ok] at hg
  simp only at hg
  rw [idx_eq_ok.2 (List.getElem?_eq_getElem ha'), idx_eq_ok.2 (List.getElem?_eq_getElem hb'), res_bind_ok,
    res_bind_ok, Except.ok.injEq] at hg
  subst hg
  rw [Bool.not_eq_false']
  constructor
  · intro h
    exact ⟨l, p, l', p', w, w', a, b, _, _, hp, hp', hw, hw', ha, hb, List.getElem?_eq_getElem ha',
      List.getElem?_eq_getElem hb', h⟩
  · rintro ⟨m1, q, m2, q', u, u', c, d, vc1, vd1, hq, hq', hu, hu', hc, hd, hvc, hvd, heq⟩
    obtain ⟨rfl, rfl⟩ := hasPolygon_unique hp hq
    obtain ⟨rfl, rfl⟩ := hasPolygon_unique hp' hq'
    have e1 : w = u := by
      have h := onlyAt_at hr hu w hw.1
      rw [hat w hw.1] at h
      simpa using h
    have e2 : w' = u' := by
      have h := onlyAt_at hr' hu' w' hw'.1
      rw [hat' w' hw'.1] at h
      simpa using h
    subst e1 e2
    have e3 : a = c := by simpa using (key1 a ha).symm.trans (key1 c hc)
    have e4 : b = d := by simpa using (key2 b hb).symm.trans (key2 d hd)
    subst e3 e4
    rw [List.getElem?_eq_getElem ha', Option.some.injEq] at hvc
    rw [List.getElem?_eq_getElem hb', Option.some.injEq] at hvd
    rw [hvc, hvd]; exact heq

theorem afterMatch_none {isAt : UInt32 → Res Bool} : ∀ {vs : List UInt32}, (∀ v ∈ vs, isAt v = .ok false) →
    afterMatch isAt vs = .ok none
  | [], _ => rfl
  | v :: vs, h => by
    unfold afterMatch
    rw [h v (by simp), res_bind_ok]
    simpa using afterMatch_none (vs := vs) (fun x hx => h x (List.mem_cons_of_mem _ hx))

theorem misses_at {l : Layer K} {p : Polygon} {m : Mesh K} {id : UInt32} {vc : Vec2 K}
    (hr : ∀ v ∈ p.vertices, v.toNat < l.vertices.length) (hp : HasPolygon m id l p) (h : Misses m vc id) :
    ∀ u ∈ p.vertices, l.atVertex vc u = .ok false := by
  intro u hu
  have hlt := hr u hu
  have := h l p hp u hu _ (List.getElem?_eq_getElem hlt)
  unfold Layer.atVertex
  rw [idx_eq_ok.2 (List.getElem?_eq_getElem hlt), res_bind_ok, this]

theorem gapBetween_misses {m : Mesh K} (hm : m.RefsInRange) {vc : Vec2 K} {id id' : UInt32} {g : Bool}
    (h1 : ∃ l p, HasPolygon m id l p) (h2 : ∃ l p, HasPolygon m id' l p)
    (ht : Misses m vc id ∨ Misses m vc id') (hg : m.gapBetween vc (id, id') = .ok g) : g = true := by
  obtain ⟨l, p, hp⟩ := h1
  obtain ⟨l', p', hp'⟩ := h2
  have hr := hm.vertices l (mem_of_has hp).1 p (mem_of_has hp).2
  have hr' := hm.vertices l' (mem_of_has hp').1 p' (mem_of_has hp').2
  unfold Mesh.gapBetween at hg
  simp only at hg
  rw [layerOf_toNat, layerOf_toNat, polygonOf_toNat, polygonOf_toNat, idx_eq_ok.2 hp.1, idx_eq_ok.2 hp'.1,
    res_bind_ok, res_bind_ok, idx_eq_ok.2 hp.2, res_bind_ok] at hg
  obtain ⟨r, hr1, hr2⟩ := afterMatch_ok (isAt := l.atVertex vc) (vs := p.vertices.reverse ++ p.vertices.reverse)
    (fun v hv => atVertex_safe (hr v (by simpa using hv)))
  rcases ht with ht | ht
  · rw [afterMatch_none (fun v hv => misses_at hr hp ht v (by simpa using hv)), res_bind_ok] at hg
    exact (Except.ok.inj hg).symm
  · rw [hr1, res_bind_ok] at hg
    cases r with
    | none => exact (Except.ok.inj hg).symm
    | some a =>
      simp only at hg
      rw [idx_eq_ok.2 hp'.2, res_bind_ok,
        afterMatch_none (fun v hv => misses_at hr' hp' ht v (by simpa using hv)), res_bind_ok] at hg
      exact (Except.ok.inj hg).symm

/-! ### One vertex -/

theorem dedupList_sublist {α : Type} [DecidableEq α] : ∀ {l : List α}, (dedupList l).Sublist l
  | [] => by simp [dedupList]
  | [b] => by simp [dedupList]
  | b :: c :: l => by
    unfold dedupList
    split
    · exact (dedupList_sublist (l := c :: l)).cons _
    · exact (dedupList_sublist (l := c :: l)).cons_cons _

/-- The entries of one polygon, with the gap after it. -/
def gapEntry (gap : UInt32 × UInt32 → Bool) (e : UInt32 × UInt32) : List UInt32 :=
  if gap e then [e.1, u32Max] else [e.1]

theorem filter_gapEntry {gap : UInt32 × UInt32 → Bool} : ∀ {es : List (UInt32 × UInt32)},
    (∀ e ∈ es, e.1 ≠ u32Max) → (es.flatMap (gapEntry gap)).filter (· != u32Max) = es.map (·.1)
  | [], _ => rfl
  | e :: es, h => by
    have h1 := h e (by simp)
    have ih := filter_gapEntry (gap := gap) (es := es) (fun x hx => h x (List.mem_cons_of_mem _ hx))
    rw [List.flatMap_cons, List.filter_append, ih]
    unfold gapEntry
    split <;> simp [h1]

theorem chain_gapEntry {gap : UInt32 × UInt32 → Bool} : ∀ {es : List (UInt32 × UInt32)},
    (∀ e ∈ es, e.1 ≠ u32Max) → (es.map (·.1)).IsChain (· ≠ ·) →
    (es.flatMap (gapEntry gap)).IsChain (· ≠ ·) ∧ (es.flatMap (gapEntry gap)).head? = (es.map (·.1)).head?
  | [], _, _ => by simp
  | e :: es, h, hc => by
    have h1 := h e (by simp)
    obtain ⟨ih, hh⟩ := chain_gapEntry (gap := gap) (es := es) (fun x hx => h x (List.mem_cons_of_mem _ hx))
      (by cases es with
          | nil => simp
          | cons y ys => simp only [List.map_cons] at hc ⊢; exact (List.isChain_cons_cons.1 hc).2)
    refine ⟨?_, ?_⟩
    · rw [List.flatMap_cons]
      refine List.isChain_append.2 ⟨?_, ih, ?_⟩
      · unfold gapEntry; split <;> simp [h1]
      · intro x hx y hy
        rw [hh] at hy
        cases es with
        | nil => simp at hy
        | cons z es =>
          simp only [List.map_cons, List.head?_cons, Option.mem_def, Option.some.injEq] at hy
          subst hy
          have hz := h z (by simp)
          simp only [List.map_cons] at hc
          have hez := (List.isChain_cons_cons.1 hc).1
          unfold gapEntry at hx
          split at hx
          · simp only [List.getLast?_cons_cons, List.getLast?_singleton, Option.mem_def, Option.some.injEq] at hx
            subst hx; exact hz.symm
          · simp only [List.getLast?_singleton, Option.mem_def, Option.some.injEq] at hx
            subst hx; exact hez
    · rw [List.flatMap_cons]
      unfold gapEntry
      split <;> simp

theorem withGap_eq {m : Mesh K} {vc : Vec2 K} {es : List (UInt32 × UInt32)} {r : List (List UInt32)}
    (h : es.mapM (m.withGap vc) = .ok r) :
    r.flatten = es.flatMap (gapEntry (fun e => match m.gapBetween vc e with | .ok g => g | .error _ => false)) := by
  rw [mapM_ok_iff] at h
  induction h with
  | nil => rfl
  | cons h1 h2 ih =>
    rw [List.flatten_cons, ih, List.flatMap_cons]
    congr 1
    unfold Mesh.withGap at h1
    rw [bind_eq_ok] at h1
    obtain ⟨g, hg, h1⟩ := h1
    rw [Except.ok.injEq] at h1
    subst h1
    unfold gapEntry
    simp only [hg]

theorem sortByKey_spec {m : Mesh K} (hm : m.RefsInRange) {s : Sorter} (hs : s.Ok) (vc : Vec2 K) {ps : List UInt32}
    (h : ∀ id ∈ ps, ∃ l p, HasPolygon m id l p) :
    ∃ r, sortByKey s (m.angleKey vc) ps = .ok r ∧ r.Perm ps ∧
      r.Pairwise (fun id id' => ∃ k k', AngleFrom m vc id k ∧ AngleFrom m vc id' k' ∧ k ≤ k') := by
  unfold sortByKey
  split
  · rename_i hlt
    refine ⟨ps, rfl, .refl _, ?_⟩
    match ps, hlt with
    | [], _ => simp
    | [a], _ => simp
  · obtain ⟨ks, hks⟩ := (safe_mapM ps (fun id hid => angleKey_safe hm vc (h id hid))).ex
    rw [hks, res_bind_ok]
    obtain ⟨h1, h2⟩ := hs (fun p => match m.angleKey vc p with | .ok k => k | .error _ => 0) ps
    refine ⟨_, rfl, h1, h2.imp_of_mem ?_⟩
    intro a b ha hb hle
    obtain ⟨k, hk⟩ := (angleKey_safe hm vc (h a (h1.mem_iff.1 ha))).ex
    obtain ⟨k', hk'⟩ := (angleKey_safe hm vc (h b (h1.mem_iff.1 hb))).ex
    simp only [hk, hk'] at hle
    exact ⟨k, k', angleKey_spec.1 hk, angleKey_spec.1 hk', hle⟩

theorem reorderVertex_spec {m : Mesh K} (hm : m.RefsInRange) {s : Sorter} (hs : s.Ok) {l : Layer K} {v : Vertex K}
    (hl : l ∈ m.layers) (hv : v ∈ l.vertices) :
    ∃ ps, m.reorderVertex s l v = .ok ps ∧ Reordered m (v.coords + l.offset) v.polygons ps := by
  have hrefs : ∀ id ∈ v.polygons.filter (· != u32Max), ∃ l p, HasPolygon m id l p := by
    intro id hid
    simp only [List.mem_filter, bne_iff_ne, ne_eq] at hid
    exact hm.refs l hl v hv id hid.1 hid.2
  obtain ⟨r, hr, hperm, hpair⟩ := sortByKey_spec hm hs (v.coords + l.offset) hrefs
  unfold Mesh.reorderVertex
  simp only
  rw [hr, res_bind_ok]
  generalize hds : dedupList r = ds
  have hmem : ∀ id, id ∈ ds ↔ id ∈ v.polygons ∧ id ≠ u32Max := by
    intro id
    rw [← hds, mem_dedupList, hperm.mem_iff]
    simp
  have hchain : ds.IsChain (· ≠ ·) := hds ▸ dedupList_chain
  have hsorted := hpair.sublist (hds ▸ dedupList_sublist (l := r))
  have hself : ds.filter (· != u32Max) = ds := by
    rw [List.filter_eq_self]
    intro a ha
    simp [((hmem a).1 ha).2]
  cases ds with
  | nil =>
    have hnone : ∀ id ∈ v.polygons, id = u32Max := by
      intro id hid
      by_contra hne
      exact absurd ((hmem id).2 ⟨hid, hne⟩) (by simp)
    refine ⟨[u32Max], rfl, ?_⟩
    constructor
    · intro id hid
      simp only [List.mem_singleton, hid, false_iff]
      exact fun h => hid (hnone id h)
    · exact fun _ => rfl
    · simp
    · simp
    · simp
    · rintro ⟨id, hid, hne⟩; exact absurd (hnone id hid) hne
    · simp
    · simp
  | cons first rest =>
    simp only
    split
    · rename_i hfl
      have hfilter : (first :: rest ++ [u32Max]).filter (· != u32Max) = first :: rest := by
        rw [List.filter_append, hself]; simp
      refine ⟨_, rfl, ?_⟩
      constructor
      · intro id hid
        rw [List.mem_append, hmem]
        simp [hid]
      · intro hall
        have h1 := (hmem first).1 (by simp)
        exact absurd (hall first h1.1) h1.2
      · rw [hfilter]; exact hsorted
      · rw [hfilter]; exact hchain
      · refine List.isChain_append.2 ⟨hchain, by simp, ?_⟩
        intro x hx y hy
        simp only [List.head?_cons, Option.mem_def, Option.some.injEq] at hy
        subst hy
        exact ((hmem x).1 (List.mem_of_mem_getLast? hx)).2
      · intro _
        have := ((hmem first).1 (by simp)).2
        simpa using this
      · intro id hid
        rw [hfilter] at hid
        rw [hid]; rfl
      · intro hne
        rw [hfilter] at hne
        exfalso; apply hne
        rw [List.getLast?_eq_some_getLast (by simp), ← hfl]; rfl
    · rename_i hfl
      have hcyc : windows2 (first :: rest) ++ [((first :: rest).getLast (by simp), first)] =
          (first :: rest).zip ((first :: rest).rotate 1) := by
        rw [← cycEdges_eq_rotate]
        have hl := (first :: rest).dropLast_append_getLast (by simp)
        generalize hg : (first :: rest).getLast (by simp) = g at hl ⊢
        generalize hd : (first :: rest).dropLast = d at hl
        have := windows2_append d g [first]
        rw [cycEdges, ← hl]
        simpa [windows2_cons, windows2_single] using this.symm
      generalize hes : (first :: rest).zip ((first :: rest).rotate 1) = es at hcyc
      rw [hcyc]
      have hfst : es.map (·.1) = first :: rest := by
        rw [← hes, List.map_fst_zip (by simp)]
      have hesmem : ∀ e ∈ es, e.1 ∈ first :: rest ∧ e.2 ∈ first :: rest := by
        intro e he
        rw [← hes] at he
        obtain ⟨h1, h2⟩ := List.of_mem_zip (a := e.1) (b := e.2) he
        exact ⟨h1, List.mem_rotate.1 h2⟩
      have hhas : ∀ id ∈ first :: rest, ∃ l p, HasPolygon m id l p := by
        intro id hid
        have h := (hmem id).1 hid
        exact hm.refs l hl v hv id h.1 h.2
      have hne : ∀ e ∈ es, e.1 ≠ u32Max := fun e he => ((hmem e.1).1 (hesmem e he).1).2
      have hsafe : Safe (es.mapM (m.withGap (v.coords + l.offset))) := safe_mapM _ (fun e he =>
        safe_bind (gapBetween_safe hm _ (hhas e.1 (hesmem e he).1) (hhas e.2 (hesmem e he).2))
          (fun _ _ => safe_ok _))
      obtain ⟨gs, hgs⟩ := hsafe.ex
      rw [hgs, res_bind_ok]
      refine ⟨_, rfl, ?_⟩
      rw [withGap_eq hgs]
      generalize hgap : (fun e => match m.gapBetween (v.coords + l.offset) e with | .ok g => g | .error _ => false)
        = gap
      have hfilter := filter_gapEntry (gap := gap) hne
      rw [hfst] at hfilter
      obtain ⟨hc1, hc2⟩ := chain_gapEntry (gap := gap) hne (by rw [hfst]; exact hchain)
      rw [hfst] at hc2
      constructor
      · intro id hid
        have : id ∈ es.flatMap (gapEntry gap) ↔ id ∈ first :: rest := by
          rw [← hfilter, List.mem_filter]
          simp [hid]
        rw [this, hmem]
        simp [hid]
      · intro hall
        have h1 := (hmem first).1 (by simp)
        exact absurd (hall first h1.1) h1.2
      · rw [hfilter]; exact hsorted
      · rw [hfilter]; exact hchain
      · exact hc1
      · intro _
        rw [hc2]
        have := ((hmem first).1 (by simp)).2
        simpa using this
      · intro id hid
        rw [hfilter] at hid
        rw [List.cons.injEq] at hid
        obtain ⟨rfl, rfl⟩ := hid
        exact absurd rfl hfl
      · intro _
        rw [hfilter, hes]
        refine ⟨gap, rfl, ?_⟩
        intro e he
        have h1 := hhas e.1 (hesmem e he).1
        have h2 := hhas e.2 (hesmem e he).2
        obtain ⟨g, hg⟩ := (gapBetween_safe hm (v.coords + l.offset) h1 h2).ex
        have : gap e = g := by rw [← hgap]; simp only [hg]
        rw [this]
        exact ⟨fun ht ht' => gapBetween_spec hm h1 h2 ht ht' hg, fun h => gapBetween_misses hm h1 h2 h hg⟩

/-! ### C23 -/

/-- **C23**: on a mesh with references in range, and whatever the order in which equal angles are sorted, reordering
succeeds; every vertex keeps its position and its set of polygons, in counterclockwise order with gaps
exactly between polygons that are not adjacent (`Reordered`), and is a corner iff there is a gap; nothing else
changes. -/
theorem C23_reorder (m : Mesh K) (hm : m.RefsInRange) (s : Sorter) (hs : s.Ok) :
    ∃ m', m.reorderNeighbors s = .ok m' ∧ m' = { m with layers := m'.layers } ∧
      List.Forall₂ (fun l l' => SameButNeighbours l l' ∧
        List.Forall₂ (fun v v' => Reordered m (v.coords + l.offset) v.polygons v'.polygons ∧
          (v'.isCorner = true ↔ u32Max ∈ v'.polygons)) l.vertices l'.vertices) m.layers m'.layers := by
  have hv : ∀ l ∈ m.layers, ∃ vs, l.vertices.mapM (fun v => do
      let ps ← m.reorderVertex s l v
      (.ok { v with isCorner := ps.contains u32Max, polygons := ps } : Res (Vertex K))) = .ok vs ∧
      List.Forall₂ (fun v v' => v'.coords = v.coords ∧ Reordered m (v.coords + l.offset) v.polygons v'.polygons ∧
          (v'.isCorner = true ↔ u32Max ∈ v'.polygons)) l.vertices vs := by
    intro l hl
    have hsafe : ∀ v ∈ l.vertices, Safe (do
        let ps ← m.reorderVertex s l v
        (.ok { v with isCorner := ps.contains u32Max, polygons := ps } : Res (Vertex K))) := by
      intro v hv
      obtain ⟨ps, hps, -⟩ := reorderVertex_spec hm hs hl hv
      rw [hps]
      exact safe_ok _
    obtain ⟨vs, hvs⟩ := (safe_mapM _ hsafe).ex
    refine ⟨vs, hvs, ?_⟩
    rw [mapM_ok_iff] at hvs
    refine (List.forall₂_iff_get.2 ⟨hvs.length_eq, ?_⟩)
    intro i h1 h2
    have h := (List.forall₂_iff_get.1 hvs).2 i h1 h2
    simp only [List.get_eq_getElem] at h ⊢
    obtain ⟨ps, hps, hre⟩ := reorderVertex_spec hm hs hl (List.getElem_mem h1)
    rw [hps, res_bind_ok, Except.ok.injEq] at h
    rw [← h]
    exact ⟨rfl, hre, by simp⟩
  have hsafe : ∀ l ∈ m.layers, Safe (do
      let vs ← l.vertices.mapM (fun v => do
        let ps ← m.reorderVertex s l v
        (.ok { v with isCorner := ps.contains u32Max, polygons := ps } : Res (Vertex K)))
      (.ok { l with vertices := vs } : Res (Layer K))) := by
    intro l hl
    obtain ⟨vs, hvs, -⟩ := hv l hl
    rw [hvs]
    exact safe_ok _
  obtain ⟨ls, hls⟩ := (safe_mapM _ hsafe).ex
  refine ⟨{ m with layers := ls }, ?_, rfl, ?_⟩
  · unfold Mesh.reorderNeighbors
    rw [hls, res_bind_ok]
  rw [mapM_ok_iff] at hls
  refine (List.forall₂_iff_get.2 ⟨hls.length_eq, ?_⟩)
  intro i h1 h2
  have h := (List.forall₂_iff_get.1 hls).2 i h1 h2
  simp only [List.get_eq_getElem] at h ⊢
  obtain ⟨vs, hvs, hall⟩ := hv m.layers[i] (List.getElem_mem h1)
  rw [hvs, res_bind_ok, Except.ok.injEq] at h
  rw [← h]
  refine ⟨⟨rfl, rfl, rfl, rfl, rfl, ?_⟩, hall.imp (fun _ _ h => h.2)⟩
  clear hvs h
  simp only
  generalize m.layers[i].vertices = ws at hall
  induction hall with
  | nil => rfl
  | cons h1 _ ih => simp only [List.map_cons]; exact congr (congrArg _ h1.1) ih

/-! ### C28 -/

theorem useless_iff {v : Vertex K} : v.useless = true ↔ Unused v := by
  unfold Vertex.useless Unused
  simp [List.isEmpty_iff]

theorem keptIndexes_length : ∀ (k : Nat) (vs : List (Vertex K)), (keptIndexes k vs).length = vs.length
  | _, [] => rfl
  | k, v :: vs => by
    unfold keptIndexes
    split <;> simp [keptIndexes_length]

/-- The new number of a vertex is its place among the kept ones. -/
theorem keptIndexes_get : ∀ (vs : List (Vertex K)) (k i : Nat) (v : Vertex K), vs[i]? = some v →
    (v.useless = true ∧ (keptIndexes k vs)[i]? = some none) ∨
    (v.useless = false ∧ ∃ j, (keptIndexes k vs)[i]? = some (some (k + j)) ∧
      (vs.filter (fun v => !v.useless))[j]? = some v ∧ j ≤ i)
  | [], _, _, _, h => by simp at h
  | w :: ws, k, 0, v, h => by
    simp only [List.getElem?_cons_zero, Option.some.injEq] at h
    subst h
    unfold keptIndexes
    cases hu : w.useless with
    | true => exact .inl ⟨rfl, by simp⟩
    | false => exact .inr ⟨rfl, 0, by simp, by simp [hu], Nat.le_refl _⟩
  | w :: ws, k, i + 1, v, h => by
    simp only [List.getElem?_cons_succ] at h
    unfold keptIndexes
    cases hu : w.useless with
    | true =>
      rcases keptIndexes_get ws k i v h with ⟨h1, h2⟩ | ⟨h1, j, h2, h3, h4⟩
      · exact .inl ⟨h1, by simpa using h2⟩
      · exact .inr ⟨h1, j, by simpa using h2, by simpa [hu] using h3, by omega⟩
    | false =>
      rcases keptIndexes_get ws (k + 1) i v h with ⟨h1, h2⟩ | ⟨h1, j, h2, h3, h4⟩
      · exact .inl ⟨h1, by simpa using h2⟩
      · refine .inr ⟨h1, j + 1, ?_, by simpa [hu] using h3, by omega⟩
        simp only [Bool.false_eq_true, if_false, List.getElem?_cons_succ, h2]
        congr 2; omega

theorem renumber_spec {vs : List (Vertex K)} (hsize : vs.length < 2 ^ 32) {u : UInt32} {vx : Vertex K}
    (h : vs[u.toNat]? = some vx) : ∃ u', renumberVertex (keptIndexes 0 vs) u = .ok u' ∧
      (¬ Unused vx → (vs.filter (fun v => !v.useless))[u'.toNat]? = some vx) ∧ (Unused vx → u' = u32Max) := by
  unfold renumberVertex
  rcases keptIndexes_get vs 0 u.toNat vx h with ⟨h1, h2⟩ | ⟨h1, j, h2, h3, h4⟩
  · refine ⟨u32Max, by rw [idx_eq_ok.2 h2]; rfl, fun hn => absurd (useless_iff.1 h1) hn, fun _ => rfl⟩
  · refine ⟨UInt32.ofNat j, by rw [idx_eq_ok.2 h2]; simp, fun _ => ?_, fun hn => ?_⟩
    · rw [UInt32.toNat_ofNat_of_lt' (by have := u.toNat_lt; show j < 2 ^ 32; omega)]
      exact h3
    · rw [useless_iff.2 hn] at h1; simp at h1

/-- **C28** (one layer): if the polygons refer to existing vertices, `remove_useless_vertices` succeeds, removes exactly
the unused vertices and renumbers the corners (`Cleaned`), and returns whether there was one. -/
theorem C28_layer (l : Layer K) (hsize : l.vertices.length < 2 ^ 32)
    (hr : ∀ p ∈ l.polygons, ∀ v ∈ p.vertices, v.toNat < l.vertices.length) :
    ∃ l' removed, l.removeUseless = .ok (l', removed) ∧ Cleaned l l' ∧
      (removed = true ↔ ∃ v ∈ l.vertices, Unused v) := by
  have hsafe : ∀ p ∈ l.polygons, Safe (do
      let vs ← p.vertices.mapM (renumberVertex (keptIndexes 0 l.vertices))
      (.ok { p with vertices := vs } : Res Polygon)) := by
    intro p hp
    refine safe_bind (safe_mapM _ (fun u hu => ?_)) (fun _ _ => safe_ok _)
    obtain ⟨u', hu', -⟩ := renumber_spec hsize (List.getElem?_eq_getElem (hr p hp u hu))
    exact ⟨u', hu'⟩
  obtain ⟨ps, hps⟩ := (safe_mapM _ hsafe).ex
  refine ⟨_, _, by unfold Layer.removeUseless; simp only; rw [hps, res_bind_ok], ⟨?_, ?_, rfl⟩, ?_⟩
  · apply List.filter_congr
    intro v _
    unfold Vertex.useless
    cases v.polygons <;> simp [bne]
  · rw [mapM_ok_iff] at hps
    refine List.forall₂_iff_get.2 ⟨hps.length_eq, ?_⟩
    intro i h1 h2
    have h := (List.forall₂_iff_get.1 hps).2 i h1 h2
    simp only [List.get_eq_getElem, bind_eq_ok, Except.ok.injEq] at h ⊢
    obtain ⟨vs, hvs, heq⟩ := h
    rw [← heq]
    refine ⟨rfl, ?_⟩
    rw [mapM_ok_iff] at hvs
    refine List.forall₂_iff_get.2 ⟨hvs.length_eq, ?_⟩
    intro j h3 h4
    have h := (List.forall₂_iff_get.1 hvs).2 j h3 h4
    simp only [List.get_eq_getElem] at h ⊢
    have hlt := hr l.polygons[i] (List.getElem_mem h1) _ (List.getElem_mem h3)
    obtain ⟨u', hu', ha, hb⟩ := renumber_spec hsize (List.getElem?_eq_getElem hlt)
    rw [hu', Except.ok.injEq] at h
    exact ⟨_, List.getElem?_eq_getElem hlt, h ▸ ha, h ▸ hb⟩
  · simp only [List.any_eq_true, useless_iff]

/-- **C28** (fault): a corner that is not a vertex of the layer is a panic. -/
theorem C28_panic (l : Layer K) (p : Polygon) (hp : p ∈ l.polygons) (v : UInt32) (hv : v ∈ p.vertices)
    (h : l.vertices.length ≤ v.toNat) : l.removeUseless = .error .panic := by
  have herr : ∀ u, (∃ u', renumberVertex (keptIndexes 0 l.vertices) u = .ok u') ∨
      renumberVertex (keptIndexes 0 l.vertices) u = .error .panic := by
    intro u
    unfold renumberVertex idx
    split
    · exact .inl ⟨_, rfl⟩
    · exact .inr rfl
  have hv' : renumberVertex (keptIndexes 0 l.vertices) v = .error .panic := by
    unfold renumberVertex idx
    rw [List.getElem?_eq_none (by rw [keptIndexes_length]; exact h)]
    rfl
  have hmap : ∀ {α β : Type} (f : α → Res β) (xs : List α), (∀ x, (∃ y, f x = .ok y) ∨ f x = .error .panic) →
      ((∃ ys, xs.mapM f = .ok ys) ∨ xs.mapM f = .error .panic) := by
    intro α β f xs hf
    induction xs with
    | nil => exact .inl ⟨[], rfl⟩
    | cons x xs ih =>
      rw [List.mapM_cons]
      rcases hf x with ⟨y, hy⟩ | hy
      · rw [hy, res_bind_ok]
        rcases ih with ⟨ys, hys⟩ | hys
        · rw [hys]; exact .inl ⟨_, rfl⟩
        · rw [hys]; exact .inr rfl
      · rw [hy]; exact .inr rfl
  have hbad : ∀ {α β : Type} (f : α → Res β) (xs : List α) (x : α), (∀ x, (∃ y, f x = .ok y) ∨ f x = .error .panic) →
      x ∈ xs → f x = .error .panic → xs.mapM f = .error .panic := by
    intro α β f xs x hf hx hfx
    rcases hmap f xs hf with ⟨ys, hys⟩ | hys
    · rw [mapM_ok_iff] at hys
      obtain ⟨i, hi, rfl⟩ := List.getElem_of_mem hx
      have := (List.forall₂_iff_get.1 hys).2 i hi (by rw [← hys.length_eq]; exact hi)
      simp only [List.get_eq_getElem] at this
      rw [hfx] at this; simp at this
    · exact hys
  unfold Layer.removeUseless
  simp only
  rw [hbad _ l.polygons p ?_ hp ?_]
  · rfl
  · intro q
    rcases hmap _ q.vertices herr with ⟨ys, hys⟩ | hys
    · rw [hys]; exact .inl ⟨_, rfl⟩
    · rw [hys]; exact .inr rfl
  · rw [hbad _ p.vertices v herr hv hv']; rfl

theorem keptIndexes_clean : ∀ (vs : List (Vertex K)) (k i : Nat), (∀ v ∈ vs, ¬ Unused v) → i < vs.length →
    (keptIndexes k vs)[i]? = some (some (k + i))
  | [], _, _, _, h => by simp at h
  | w :: ws, k, i, hc, h => by
    have hw : w.useless = false := by
      have := hc w (by simp)
      rw [← useless_iff] at this
      simpa using this
    unfold keptIndexes
    rw [hw]
    cases i with
    | zero => simp
    | succ i =>
      have := keptIndexes_clean ws (k + 1) i (fun v hv => hc v (by simp [hv])) (by simpa using h)
      simp only [Bool.false_eq_true, if_false, List.getElem?_cons_succ, this]
      congr 2; omega

theorem removeUseless_clean {l : Layer K} (hc : l.Clean)
    (hr : ∀ p ∈ l.polygons, ∀ v ∈ p.vertices, v.toNat < l.vertices.length) :
    l.removeUseless = .ok (l, false) := by
  have hv : ∀ u : UInt32, u.toNat < l.vertices.length → renumberVertex (keptIndexes 0 l.vertices) u = .ok u := by
    intro u hu
    unfold renumberVertex
    rw [idx_eq_ok.2 (keptIndexes_clean l.vertices 0 u.toNat hc hu), res_bind_ok]
    simp
  have hp : l.polygons.mapM (fun p => do
      let vs ← p.vertices.mapM (renumberVertex (keptIndexes 0 l.vertices))
      (.ok { p with vertices := vs } : Res Polygon)) = .ok l.polygons := by
    rw [mapM_ok_iff, List.forall₂_same]
    intro p hp
    have : p.vertices.mapM (renumberVertex (keptIndexes 0 l.vertices)) = .ok p.vertices := by
      rw [mapM_ok_iff, List.forall₂_same]
      exact fun u hu => hv u (hr p hp u hu)
    rw [this, res_bind_ok]
  have hany : l.vertices.any Vertex.useless = false := by
    rw [Bool.eq_false_iff]
    simp only [ne_eq, List.any_eq_true, useless_iff, not_exists, not_and]
    exact fun v hv => hc v hv
  have hfil : l.vertices.filter (fun v => !v.useless) = l.vertices := by
    rw [List.filter_eq_self]
    intro v hv
    have := hc v hv
    rw [← useless_iff] at this
    simpa using this
  unfold Layer.removeUseless
  simp only
  rw [hp, res_bind_ok, hany, hfil]

theorem Cleaned.clean {l l' : Layer K} (h : Cleaned l l') : l'.Clean := by
  intro v hv hu
  rw [h.vertices] at hv
  simp only [List.mem_filter, Bool.and_eq_true, bne_iff_ne, ne_eq] at hv
  rcases hu with hu | hu
  · exact hv.2.1 hu
  · exact hv.2.2 hu

theorem Cleaned.cornersUsed {l l' : Layer K} (hcl : Cleaned l l') (hr : l.CornersUsed) : l'.CornersUsed := by
  intro p' hp' v' hv'
  obtain ⟨i, hi, rfl⟩ := List.getElem_of_mem hp'
  have hlen := hcl.polygons.length_eq
  have h1 := ((List.forall₂_iff_get.1 hcl.polygons).2 i (by omega) hi).2
  simp only [List.get_eq_getElem] at h1
  obtain ⟨j, hj, rfl⟩ := List.getElem_of_mem hv'
  have hlen2 := h1.length_eq
  obtain ⟨vx, hvx, hused, -⟩ := (List.forall₂_iff_get.1 h1).2 j (by omega) hj
  simp only [List.get_eq_getElem] at hvx hused
  obtain ⟨vy, hvy, hun⟩ := hr _ (List.getElem_mem (by omega : i < l.polygons.length)) _
    (List.getElem_mem (by omega : j < l.polygons[i].vertices.length))
  rw [hvx, Option.some.injEq] at hvy
  subst hvy
  exact ⟨vx, hused hun, hun⟩

/-- **C28** (idempotence): if moreover all corners of polygons are used vertices, a second call changes nothing and
returns false. -/
theorem C28_idempotent (l : Layer K) (hsize : l.vertices.length < 2 ^ 32)
    (hr : l.CornersUsed) :
    ∃ l' removed, l.removeUseless = .ok (l', removed) ∧ l'.removeUseless = .ok (l', false) := by
  obtain ⟨l', b, h, hcl, -⟩ := C28_layer l hsize (fun p hp v hv => by
    obtain ⟨vx, h, -⟩ := hr p hp v hv
    exact lt_of_getElem? h)
  refine ⟨l', b, h, removeUseless_clean hcl.clean ?_⟩
  intro p' hp' v' hv'
  obtain ⟨vx, h, -⟩ := hcl.cornersUsed hr p' hp' v' hv'
  exact lt_of_getElem? h

theorem removeUselessLayers_spec : ∀ (ls : List (Layer K)), (∀ l ∈ ls, l.vertices.length < 2 ^ 32) →
    (∀ l ∈ ls, ∀ p ∈ l.polygons, ∀ v ∈ p.vertices, v.toNat < l.vertices.length) →
    ((∀ l ∈ ls, l.Clean) ∧ removeUselessLayers ls = .ok (ls, false)) ∨
    (∃ before dirty after dirty', ls = before ++ dirty :: after ∧ (∀ l ∈ before, l.Clean) ∧ ¬ dirty.Clean ∧
      Cleaned dirty dirty' ∧ removeUselessLayers ls = .ok (before ++ dirty' :: after, true))
  | [], _, _ => .inl ⟨by simp, rfl⟩
  | l :: ls, hs, hr => by
    obtain ⟨l', b, h, hcl, hb⟩ := C28_layer l (hs l (by simp)) (hr l (by simp))
    unfold removeUselessLayers
    cases b with
    | true =>
      refine .inr ⟨[], l, ls, l', rfl, by simp, ?_, hcl, by rw [h, res_bind_ok]; rfl⟩
      intro hc
      obtain ⟨v, hv, hu⟩ := hb.1 rfl
      exact hc v hv hu
    | false =>
      have hc : l.Clean := fun v hv hu => by simpa using hb.2 ⟨v, hv, hu⟩
      have hsame := removeUseless_clean hc (hr l (by simp))
      rw [hsame, Except.ok.injEq, Prod.mk.injEq] at h
      obtain ⟨rfl, -⟩ := h
      rcases removeUselessLayers_spec ls (fun x hx => hs x (by simp [hx])) (fun x hx => hr x (by simp [hx])) with
        ⟨h1, h2⟩ | ⟨before, dirty, after, dirty', rfl, h1, h2, h3, h4⟩
      · refine .inl ⟨?_, by rw [hsame, res_bind_ok]; simp only [Bool.false_eq_true, if_false]; rw [h2]; rfl⟩
        intro x hx
        rcases List.mem_cons.1 hx with rfl | hx
        · exact hc
        · exact h1 x hx
      · refine .inr ⟨l :: before, dirty, after, dirty', rfl, ?_, h2, h3, ?_⟩
        · intro x hx
          rcases List.mem_cons.1 hx with rfl | hx
          · exact hc
          · exact h1 x hx
        · rw [hsame, res_bind_ok]; simp only [Bool.false_eq_true, if_false]; rw [h4]; rfl

/-- **C28** (mesh, what holds): a call either finds every layer clean, changes nothing and returns false; or cleans the
first layer that is not clean, leaves the others as they are and returns true. -/
theorem C28_mesh_partial (m : Mesh K) (h : m.Cleanable) :
    ((∀ l ∈ m.layers, l.Clean) ∧ m.removeUseless = .ok (m, false)) ∨
    (∃ before dirty after dirty', m.layers = before ++ dirty :: after ∧ (∀ l ∈ before, l.Clean) ∧ ¬ dirty.Clean ∧
      Cleaned dirty dirty' ∧ m.removeUseless = .ok ({ m with layers := before ++ dirty' :: after }, true)) := by
  unfold Mesh.removeUseless
  rcases removeUselessLayers_spec m.layers h.size h.range with ⟨h1, h2⟩ | ⟨b, d, a, d', h0, h1, h2, h3, h4⟩
  · exact .inl ⟨h1, by rw [h2, res_bind_ok]⟩
  · exact .inr ⟨b, d, a, d', h0, h1, h2, h3, by rw [h4, res_bind_ok]⟩

theorem removal_calls : ∀ (n : Nat) (m : Mesh K), (∀ l ∈ m.layers, l.vertices.length < 2 ^ 32) →
    (∀ l ∈ m.layers, l.CornersUsed) → (∃ done todo, m.layers = done ++ todo ∧ (∀ l ∈ done, l.Clean) ∧ todo.length ≤ n) →
    ∃ k m', k ≤ n ∧ RemovalCalls k m m' ∧ m'.removeUseless = .ok (m', false) ∧ m' = { m with layers := m'.layers } ∧
      List.Forall₂ (fun l l' => (l.Clean ∧ l' = l) ∨ (¬ l.Clean ∧ Cleaned l l')) m.layers m'.layers := by
  intro n
  induction n with
  | zero =>
    intro m hs hc ⟨done, todo, hl, hd, hn⟩
    have : todo = [] := List.eq_nil_of_length_eq_zero (by omega)
    subst this
    rw [List.append_nil] at hl
    have hr : m.Cleanable := ⟨hs, fun l hl p hp v hv => by
      obtain ⟨vx, h, -⟩ := hc l hl p hp v hv
      exact lt_of_getElem? h⟩
    rcases C28_mesh_partial m hr with ⟨h1, h2⟩ | ⟨b, d, a, d', h0, -, h2, -, -⟩
    · exact ⟨0, m, Nat.le_refl _, .none m, h2, rfl, List.forall₂_same.2 (fun l hl => .inl ⟨h1 l hl, rfl⟩)⟩
    · exact absurd (hd d (by rw [← hl, h0]; simp)) h2
  | succ n ih =>
    intro m hs hc ⟨done, todo, hl, hd, hn⟩
    have hr : m.Cleanable := ⟨hs, fun l hl p hp v hv => by
      obtain ⟨vx, h, -⟩ := hc l hl p hp v hv
      exact lt_of_getElem? h⟩
    rcases C28_mesh_partial m hr with ⟨h1, h2⟩ | ⟨b, d, a, d', h0, h1, h2, h3, h4⟩
    · exact ⟨0, m, Nat.zero_le _, .none m, h2, rfl, List.forall₂_same.2 (fun l hl => .inl ⟨h1 l hl, rfl⟩)⟩
    · have hdm : d ∈ m.layers := by rw [h0]; simp
      have hmem : ∀ l ∈ b ++ d' :: a, l = d' ∨ l ∈ m.layers := by
        intro l hl
        rw [h0]
        simp only [List.mem_append, List.mem_cons] at hl ⊢
        tauto
      have hlen : done.length ≤ b.length := by
        by_contra hlt
        push Not at hlt
        have : m.layers[b.length]? = some d := by rw [h0]; simp
        rw [hl, List.getElem?_append_left hlt] at this
        exact h2 (hd d (List.mem_of_getElem? this))
      obtain ⟨k, m', hk, hcalls, hend, heq, hall⟩ := ih { m with layers := b ++ d' :: a } (by
          intro l hl
          rcases hmem l hl with rfl | hl
          · rw [h3.vertices]
            exact Nat.lt_of_le_of_lt (List.length_filter_le ..) (hs d hdm)
          · exact hs l hl) (by
          intro l hl
          rcases hmem l hl with rfl | hl
          · exact h3.cornersUsed (hc d hdm)
          · exact hc l hl) ⟨b ++ [d'], a, by simp, by
            intro l hl
            simp only [List.mem_append, List.mem_singleton] at hl
            rcases hl with hl | rfl
            · exact h1 l hl
            · exact h3.clean, by
            have h5 := congrArg List.length hl
            rw [h0] at h5
            simp only [List.length_append, List.length_cons] at h5
            omega⟩
      refine ⟨k + 1, m', by omega, .more h4 hcalls, hend, heq, ?_⟩
      rw [h0]
      simp only at hall
      refine List.forall₂_iff_get.2 ⟨by have := hall.length_eq; simpa using this, ?_⟩
      intro i hi hi'
      have h6 := (List.forall₂_iff_get.1 hall).2 i (by simpa using hi) hi'
      simp only [List.get_eq_getElem] at h6 ⊢
      by_cases hib : i < b.length
      · rw [List.getElem_append_left hib] at h6 ⊢; exact h6
      · rw [List.getElem_append_right (by omega)] at h6 ⊢
        by_cases hi0 : i - b.length = 0
        · simp only [hi0, List.getElem_cons_zero] at h6 ⊢
          rcases h6 with ⟨-, h6⟩ | ⟨h6, -⟩
          · rw [h6]; exact .inr ⟨h2, h3⟩
          · exact absurd h3.clean h6
        · obtain ⟨j, hj⟩ : ∃ j, i - b.length = j + 1 := ⟨i - b.length - 1, by omega⟩
          simp only [hj, List.getElem_cons_succ] at h6 ⊢; exact h6

/-- **C28** (mesh, repeated calls): calling until false is returned takes at most one call per layer and one more, and
cleans every layer. -/
theorem C28_mesh_repeat (m : Mesh K) (hs : ∀ l ∈ m.layers, l.vertices.length < 2 ^ 32)
    (hc : ∀ l ∈ m.layers, l.CornersUsed) :
    ∃ k m', k ≤ m.layers.length ∧ RemovalCalls k m m' ∧ m'.removeUseless = .ok (m', false) ∧
      m' = { m with layers := m'.layers } ∧
      List.Forall₂ (fun l l' => (l.Clean ∧ l' = l) ∨ (¬ l.Clean ∧ Cleaned l l')) m.layers m'.layers :=
  removal_calls m.layers.length m hs hc ⟨[], m.layers, rfl, by simp, Nat.le_refl _⟩

end Polyanya
