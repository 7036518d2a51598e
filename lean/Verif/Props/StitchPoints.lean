import Verif.Props.Stitching
/-
C21: finding the points at which layers can be stitched, and stitching there.
-/

namespace Polyanya

variable {K : Type} [Scalar K]

/-! ### Grouping -/

section
variable {κ ω : Type} [DecidableEq κ]

/-- What a list of entries holds after pushing the pairs `ps`. -/
structure Grouped (ps : List (κ × ω)) (es : List (κ × List ω)) : Prop where
  nodup : (es.map (·.1)).Nodup
  entry : ∀ k vs, (k, vs) ∈ es → vs ≠ [] ∧ vs = (ps.filter (fun p => p.1 = k)).map (·.2)
  all : ∀ p ∈ ps, ∃ vs, (p.1, vs) ∈ es

theorem pushEntry_keys (k : κ) (v : ω) : ∀ es : List (κ × List ω),
    (pushEntry k v es).map (·.1) = if k ∈ es.map (·.1) then es.map (·.1) else es.map (·.1) ++ [k]
  | [] => by simp [pushEntry]
  | (k', vs) :: es => by
    unfold pushEntry
    by_cases h : k' = k
    · simp [h]
    · have h' : ¬ k = k' := fun hh => h hh.symm
      have ih := pushEntry_keys k v es
      simp only [h, if_false, List.map_cons, ih, List.mem_cons, h', false_or]
      split <;> simp

theorem mem_pushEntry (k : κ) (v : ω) : ∀ {es : List (κ × List ω)}, (es.map (·.1)).Nodup → ∀ {k' : κ} {vs : List ω},
    (k', vs) ∈ pushEntry k v es ↔
      (k' ≠ k ∧ (k', vs) ∈ es) ∨ (k' = k ∧ ((∃ us, (k, us) ∈ es ∧ vs = us ++ [v]) ∨ (k ∉ es.map (·.1) ∧ vs = [v])))
  | [], _, k', vs => by
    simp [pushEntry]
  | (k0, us) :: es, hn, k', vs => by
    simp only [List.map_cons, List.nodup_cons] at hn
    unfold pushEntry
    by_cases h : k0 = k
    · subst h
      simp only [if_true, List.mem_cons, Prod.mk.injEq, List.map_cons, true_or, not_true, false_and, or_false]
      constructor
      · rintro (⟨rfl, rfl⟩ | hm)
        · exact .inr ⟨rfl, us, .inl ⟨trivial, rfl⟩, rfl⟩
        · refine .inl ⟨?_, .inr hm⟩
          rintro rfl
          exact hn.1 (List.mem_map.2 ⟨_, hm, rfl⟩)
      · rintro (⟨hne, ⟨rfl, -⟩ | hm⟩ | ⟨rfl, us', ⟨-, rfl⟩ | hm, rfl⟩)
        · exact absurd rfl hne
        · exact .inr hm
        · exact .inl ⟨rfl, rfl⟩
        · exact absurd (List.mem_map.2 ⟨_, hm, rfl⟩) hn.1
    · have h' : ¬ k = k0 := fun hh => h hh.symm
      simp only [h, if_false, List.mem_cons, Prod.mk.injEq, List.map_cons, h', false_and, false_or]
      rw [mem_pushEntry k v hn.2]
      constructor
      · rintro (⟨rfl, rfl⟩ | ⟨h1, h2⟩ | h1)
        · exact .inl ⟨h, .inl ⟨rfl, rfl⟩⟩
        · exact .inl ⟨h1, .inr h2⟩
        · exact .inr h1
      · rintro (⟨h1, ⟨rfl, rfl⟩ | h2⟩ | h1)
        · exact .inl ⟨rfl, rfl⟩
        · exact .inr (.inl ⟨h1, h2⟩)
        · exact .inr (.inr h1)

theorem grouped_push {ps : List (κ × ω)} {es : List (κ × List ω)} (h : Grouped ps es) (p : κ × ω) :
    Grouped (ps ++ [p]) (pushEntry p.1 p.2 es) := by
  obtain ⟨k, v⟩ := p
  refine ⟨?_, ?_, ?_⟩
  · rw [pushEntry_keys]
    split
    · exact h.nodup
    · rename_i hk
      rw [List.nodup_append]
      exact ⟨h.nodup, by simp, by rintro a ha b hb rfl; simp at hb; exact hk (hb ▸ ha)⟩
  · intro k' vs hm
    rw [List.filter_append, List.map_append]
    rcases (mem_pushEntry k v h.nodup).1 hm with ⟨h1, h2⟩ | ⟨rfl, ⟨us, h1, rfl⟩ | ⟨h1, rfl⟩⟩
    · obtain ⟨h3, h4⟩ := h.entry _ _ h2
      have h1' : ¬ k = k' := fun hh => h1 hh.symm
      exact ⟨h3, by simp [h1', ← h4]⟩
    · obtain ⟨h3, h4⟩ := h.entry _ _ h1
      exact ⟨by simp, by simp [← h4]⟩
    · have : ps.filter (fun p => p.1 = k') = [] := by
        rw [List.filter_eq_nil_iff]
        intro q hq
        simp only [decide_eq_true_eq]
        rintro rfl
        obtain ⟨vs, hvs⟩ := h.all q hq
        exact h1 (List.mem_map.2 ⟨_, hvs, rfl⟩)
      exact ⟨by simp, by rw [this]; simp⟩
  · intro q hq
    rcases List.mem_append.1 hq with hq | hq
    · obtain ⟨vs, hvs⟩ := h.all q hq
      by_cases hk : q.1 = k
      · exact ⟨_, (mem_pushEntry k v h.nodup).2 (.inr ⟨hk, .inl ⟨vs, hk ▸ hvs, rfl⟩⟩)⟩
      · exact ⟨_, (mem_pushEntry k v h.nodup).2 (.inl ⟨hk, hvs⟩)⟩
    · simp only [List.mem_singleton] at hq
      subst hq
      by_cases hk : k ∈ es.map (·.1)
      · obtain ⟨⟨k', us⟩, h1, h2⟩ := List.mem_map.1 hk
        simp only at h2
        subst h2
        exact ⟨_, (mem_pushEntry _ v h.nodup).2 (.inr ⟨rfl, .inl ⟨us, h1, rfl⟩⟩)⟩
      · exact ⟨_, (mem_pushEntry k v h.nodup).2 (.inr ⟨rfl, .inr ⟨hk, rfl⟩⟩)⟩

theorem grouped_foldl : ∀ (qs ps : List (κ × ω)) (es : List (κ × List ω)), Grouped ps es →
    Grouped (ps ++ qs) (qs.foldl (fun es e => pushEntry e.1 e.2 es) es)
  | [], ps, es, h => by simpa using h
  | q :: qs, ps, es, h => by
    have := grouped_foldl qs (ps ++ [q]) _ (grouped_push h q)
    simpa using this

end

/-! ### `find_stitch_points` -/

theorem pairLe_total (a b : UInt8 × UInt8) : pairLe a b = true ∨ pairLe b a = true := by
  unfold pairLe
  simp only [Bool.or_eq_true, decide_eq_true_eq, Bool.and_eq_true, beq_iff_eq, UInt8.lt_iff_toNat_lt,
    UInt8.le_iff_toNat_le, ← UInt8.toNat_inj]
  omega

theorem pairLe_trans {a b c : UInt8 × UInt8} (h1 : pairLe a b = true) (h2 : pairLe b c = true) : pairLe a c = true := by
  unfold pairLe at *
  simp only [Bool.or_eq_true, decide_eq_true_eq, Bool.and_eq_true, beq_iff_eq, UInt8.lt_iff_toNat_lt,
    UInt8.le_iff_toNat_le, ← UInt8.toNat_inj] at *
  omega

theorem pairLe_lt {a b : UInt8 × UInt8} (h : pairLe a b = true) (hne : a ≠ b) :
    a.1 < b.1 ∨ (a.1 = b.1 ∧ a.2 < b.2) := by
  have hne' : ¬ (a.1.toNat = b.1.toNat ∧ a.2.toNat = b.2.toNat) := by
    rintro ⟨h1, h2⟩
    exact hne (Prod.ext (UInt8.toNat_inj.1 h1) (UInt8.toNat_inj.1 h2))
  unfold pairLe at h
  simp only [Bool.or_eq_true, decide_eq_true_eq, Bool.and_eq_true, beq_iff_eq, UInt8.lt_iff_toNat_lt,
    UInt8.le_iff_toNat_le, ← UInt8.toNat_inj] at *
  omega

theorem mem_sharedPoints {m : Mesh K} (hm : m.layers.length ≤ 256) {k : UInt8 × UInt8} {pt : Vec2 K} :
    (k, pt) ∈ m.sharedPoints ↔ k.1 < k.2 ∧ SharedPoint m k.1.toNat k.2.toNat pt := by
  have ofNat_eq : ∀ (i : Nat) (l : Layer K), m.layers[i]? = some l → (UInt8.ofNat i).toNat = i := by
    intro i l h
    have := lt_of_getElem? h
    rw [UInt8.toNat_ofNat_of_lt' (by show i < 2 ^ 8; omega)]
  unfold Mesh.sharedPoints SharedPoint
  simp only [List.mem_flatMap, List.mem_map, List.mem_filter]
  constructor
  · rintro ⟨⟨l, i⟩, hli, v, hv, ⟨l', j⟩, hlj, w, ⟨hw, hvw⟩, heq⟩
    rw [Prod.mk.injEq] at heq
    obtain ⟨rfl, rfl⟩ := heq
    rw [List.mem_zipIdx_iff_getElem?] at hli
    obtain ⟨n, hn⟩ := List.mem_iff_getElem?.1 hlj
    rw [List.getElem?_drop, List.getElem?_zipIdx] at hn
    simp only [Nat.zero_add, Option.map_eq_some_iff, Prod.mk.injEq] at hn
    obtain ⟨x, hx, rfl, rfl⟩ := hn
    simp only at hli hv hw hvw ⊢
    refine ⟨?_, l, x, v, w, ?_, ?_, hv, hw, hvw, rfl⟩
    · rw [UInt8.lt_iff_toNat_lt, ofNat_eq _ _ hli, ofNat_eq _ _ hx]; omega
    · rw [ofNat_eq _ _ hli]; exact hli
    · rw [ofNat_eq _ _ hx]; exact hx
  · rintro ⟨hlt, l, l', v, w, hl, hl', hv, hw, hvw, rfl⟩
    rw [UInt8.lt_iff_toNat_lt] at hlt
    refine ⟨(l, k.1.toNat), by rw [List.mem_zipIdx_iff_getElem?]; exact hl, v, hv, (l', k.2.toNat), ?_, w, ⟨hw, hvw⟩, ?_⟩
    · refine List.mem_iff_getElem?.2 ⟨k.2.toNat - (k.1.toNat + 1), ?_⟩
      rw [List.getElem?_drop, List.getElem?_zipIdx]
      simp only [Nat.zero_add]
      rw [show k.1.toNat + 1 + (k.2.toNat - (k.1.toNat + 1)) = k.2.toNat by omega, hl']
      rfl
    · simp

/-- **C21** (finding): with at most 256 layers, `find_stitch_points` lists every pair of layers, first the smaller one, that
share a vertex position, each pair once and sorted, with exactly the shared positions. -/
theorem C21_find (m : Mesh K) (hm : m.layers.length ≤ 256) :
    m.findStitchPoints.Pairwise (fun e e' => e.1.1 < e'.1.1 ∨ (e.1.1 = e'.1.1 ∧ e.1.2 < e'.1.2)) ∧
    (∀ e ∈ m.findStitchPoints, e.1.1 < e.1.2 ∧ e.2 ≠ [] ∧
      ∀ pt, pt ∈ e.2 ↔ SharedPoint m e.1.1.toNat e.1.2.toNat pt) ∧
    (∀ a b : UInt8, a < b → (∃ pt, SharedPoint m a.toNat b.toNat pt) → ∃ pts, ((a, b), pts) ∈ m.findStitchPoints) := by
  have hg : Grouped m.sharedPoints (m.sharedPoints.foldl (fun es e => pushEntry e.1 e.2 es) []) := by
    have := grouped_foldl m.sharedPoints [] ([] : List ((UInt8 × UInt8) × List (Vec2 K)))
      ⟨by simp, by simp, by simp⟩
    simpa using this
  unfold Mesh.findStitchPoints
  generalize m.sharedPoints.foldl (fun es e => pushEntry e.1 e.2 es) [] = es at hg
  have hperm := List.perm_insertionSort (fun a b : (UInt8 × UInt8) × List (Vec2 K) => pairLe a.1 b.1 = true) es
  refine ⟨?_, ?_, ?_⟩
  · haveI : Std.Total (fun a b : (UInt8 × UInt8) × List (Vec2 K) => pairLe a.1 b.1 = true) :=
      ⟨fun a b => pairLe_total a.1 b.1⟩
    haveI : IsTrans ((UInt8 × UInt8) × List (Vec2 K)) (fun a b => pairLe a.1 b.1 = true) :=
      ⟨fun _ _ _ h1 h2 => pairLe_trans h1 h2⟩
    have h1 := List.pairwise_insertionSort (fun a b : (UInt8 × UInt8) × List (Vec2 K) => pairLe a.1 b.1 = true) es
    have h2 : ((es.insertionSort (fun a b => pairLe a.1 b.1 = true)).map (·.1)).Nodup :=
      (hperm.map _).nodup_iff.2 hg.nodup
    rw [List.Nodup, List.pairwise_map] at h2
    exact (h1.and h2).imp (fun h => pairLe_lt h.1 h.2)
  · intro e he
    obtain ⟨k, vs⟩ := e
    obtain ⟨h1, h2⟩ := hg.entry k vs (hperm.mem_iff.1 he)
    simp only at h1 h2 ⊢
    have hmem : ∀ pt, pt ∈ vs ↔ (k, pt) ∈ m.sharedPoints := by
      intro pt
      rw [h2]
      simp only [List.mem_map, List.mem_filter, decide_eq_true_eq]
      constructor
      · rintro ⟨⟨k', q⟩, ⟨h3, rfl⟩, rfl⟩; exact h3
      · intro h3; exact ⟨(k, pt), ⟨h3, rfl⟩, rfl⟩
    obtain ⟨q, hq⟩ := List.exists_mem_of_ne_nil vs h1
    have hlt := ((mem_sharedPoints hm).1 ((hmem q).1 hq)).1
    refine ⟨hlt, h1, fun pt => ?_⟩
    rw [hmem, mem_sharedPoints hm]
    simp [hlt]
  · rintro a b hab ⟨pt, hpt⟩
    obtain ⟨vs, hvs⟩ := hg.all ((a, b), pt) ((mem_sharedPoints hm).2 ⟨hab, hpt⟩)
    exact ⟨vs, hperm.mem_iff.2 hvs⟩

/-! ### Stitching at points -/

theorem positionOf_iff {m : Mesh K} {a : UInt8} {pt : Vec2 K} {i : Nat} :
    m.positionOf a pt = .ok i ↔ FirstAt m a.toNat pt i := by
  unfold Mesh.positionOf FirstAt
  simp only [bind_eq_ok, idx_eq_ok]
  constructor
  · rintro ⟨l, hl, h⟩
    split at h
    · rename_i i' hi
      simp only [Except.ok.injEq] at h
      subst h
      rw [List.findIdx?_eq_some_iff_getElem] at hi
      obtain ⟨hlt, h1, h2⟩ := hi
      refine ⟨l, _, hl, List.getElem?_eq_getElem hlt, h1, ?_⟩
      intro j w hj hw
      have := h2 j hj
      rw [List.getElem?_eq_getElem (by omega), Option.some.injEq] at hw
      rw [hw] at this
      simpa using this
    · simp at h
  · rintro ⟨l, v, hl, hv, hb, hf⟩
    have hlt := lt_of_getElem? hv
    refine ⟨l, hl, ?_⟩
    have : l.vertices.findIdx? (fun v => v.coords.beq pt) = some i := by
      rw [List.findIdx?_eq_some_iff_getElem]
      refine ⟨hlt, ?_, ?_⟩
      · rw [List.getElem?_eq_getElem hlt, Option.some.injEq] at hv
        rw [hv]; exact hb
      · intro j hj
        have := hf j _ hj (List.getElem?_eq_getElem (by omega))
        simp [this]
    rw [this]

theorem positionOf_some {m : Mesh K} {a : UInt8} {pt : Vec2 K} (h : SomeAt m a.toNat pt) : Safe (m.positionOf a pt) := by
  obtain ⟨l, v, hl, hv, hb⟩ := h
  unfold Mesh.positionOf
  rw [idx_eq_ok.2 hl, res_bind_ok]
  cases hf : l.vertices.findIdx? (fun v => v.coords.beq pt) with
  | none =>
    rw [List.findIdx?_eq_none_iff] at hf
    have := hf v hv
    rw [hb] at this; simp at this
  | some i => exact ⟨i, rfl⟩

theorem positionOf_none {m : Mesh K} {a : UInt8} {pt : Vec2 K} (h : ¬ SomeAt m a.toNat pt) :
    m.positionOf a pt = .error .panic := by
  unfold Mesh.positionOf idx
  cases hl : m.layers[a.toNat]? with
  | none => rfl
  | some l =>
    simp only [res_bind_ok]
    cases hf : l.vertices.findIdx? (fun v => v.coords.beq pt) with
    | none => rfl
    | some i =>
      rw [List.findIdx?_eq_some_iff_getElem] at hf
      obtain ⟨hlt, h1, -⟩ := hf
      exact absurd ⟨l, _, hl, List.getElem_mem hlt, h1⟩ h

theorem toStitchVertices_iff {m : Mesh K} {sp : StitchPoints K} {sv : StitchVertices} :
    m.toStitchVertices sp = .ok sv ↔ AtPoints m sp sv := by
  unfold Mesh.toStitchVertices AtPoints
  rw [mapM_ok_iff]
  have : ∀ (e : (UInt8 × UInt8) × List (Vec2 K)) (e' : (UInt8 × UInt8) × List (Nat × Nat)),
      ((do
        let ps ← e.2.mapM (fun point => do
          let f ← m.positionOf e.1.1 point
          let t ← m.positionOf e.1.2 point
          (.ok (f, t) : Res (Nat × Nat)))
        (.ok (e.1, ps) : Res ((UInt8 × UInt8) × List (Nat × Nat)))) = .ok e') ↔
      (e'.1 = e.1 ∧ List.Forall₂ (fun pt p => FirstAt m e.1.1.toNat pt p.1 ∧ FirstAt m e.1.2.toNat pt p.2) e.2 e'.2) := by
    intro e e'
    simp only [bind_eq_ok, mapM_ok_iff, Except.ok.injEq]
    have hp : ∀ pt (p : Nat × Nat), (∃ f, m.positionOf e.1.1 pt = .ok f ∧ ∃ t, m.positionOf e.1.2 pt = .ok t ∧ (f, t) = p) ↔
        (FirstAt m e.1.1.toNat pt p.1 ∧ FirstAt m e.1.2.toNat pt p.2) := by
      intro pt p
      simp only [positionOf_iff]
      constructor
      · rintro ⟨f, h1, t, h2, rfl⟩; exact ⟨h1, h2⟩
      · rintro ⟨h1, h2⟩; exact ⟨p.1, h1, p.2, h2, rfl⟩
    simp only [hp]
    constructor
    · rintro ⟨ps, h, rfl⟩; exact ⟨rfl, h⟩
    · rintro ⟨h1, h2⟩; exact ⟨e'.2, h2, Prod.ext h1.symm rfl⟩
  simp only [this]

theorem atPoints_exist {m : Mesh K} {sp : StitchPoints K} {sv : StitchVertices} (h : AtPoints m sp sv)
    (hne : ∀ e ∈ sp, e.1.1 ≠ e.1.2) : StitchesExist m sv := by
  intro e' he'
  obtain ⟨k, hk, rfl⟩ := List.getElem_of_mem he'
  have hlen := h.length_eq
  obtain ⟨h1, h2⟩ := (List.forall₂_iff_get.1 h).2 k (by omega) hk
  simp only [List.get_eq_getElem] at h1 h2
  refine ⟨by rw [h1]; exact hne _ (List.getElem_mem (by omega)), ?_⟩
  intro p hp
  obtain ⟨n, hn, rfl⟩ := List.getElem_of_mem hp
  have hlen2 := h2.length_eq
  obtain ⟨⟨l, v, hl, hv, -⟩, ⟨l', v', hl', hv', -⟩⟩ := (List.forall₂_iff_get.1 h2).2 n (by omega) hn
  simp only [List.get_eq_getElem] at hv hv'
  exact ⟨⟨l, v, by rw [h1]; exact hl, hv⟩, ⟨l', v', by rw [h1]; exact hl', hv'⟩⟩

/-- **C21** (stitching at points): if every point is at a vertex of both layers, `stitch_at_points` stitches the first vertices
at the points. -/
theorem C21_stitch_at_points (m : Mesh K) (hm : m.Unstitched) (sp : StitchPoints K) (hne : ∀ e ∈ sp, e.1.1 ≠ e.1.2)
    (hsp : ∀ e ∈ sp, ∀ pt ∈ e.2, SomeAt m e.1.1.toNat pt ∧ SomeAt m e.1.2.toNat pt) (oneWay : Bool)
    (sorter : Sorter) (hsort : sorter.Ok) :
    ∃ sv m', AtPoints m sp sv ∧ m.stitchAtPoints sorter sp oneWay = .ok m' ∧ SameShape m m' ∧
      StitchedBy m m' sv oneWay ∧
      (∀ l ∈ m'.layers, ∀ v ∈ l.vertices, (v.isCorner = true ↔ u32Max ∈ v.polygons)) := by
  have hsafe : Safe (m.toStitchVertices sp) := safe_mapM _ (fun e he => safe_bind
    (safe_mapM _ (fun pt hpt => safe_bind (positionOf_some (hsp e he pt hpt).1) (fun _ _ =>
      safe_bind (positionOf_some (hsp e he pt hpt).2) (fun _ _ => safe_ok _)))) (fun _ _ => safe_ok _))
  obtain ⟨sv, hsv⟩ := hsafe.ex
  have hat := toStitchVertices_iff.1 hsv
  obtain ⟨m', h1, h2, h3, h4⟩ := C20_stitch m hm sv (atPoints_exist hat hne) oneWay sorter hsort
  refine ⟨sv, m', hat, ?_, h2, h3, h4⟩
  unfold Mesh.stitchAtPoints
  rw [hsv, res_bind_ok]
  exact h1

theorem mapM_panic {α β : Type} {f : α → Res β} {xs : List α} {x : α}
    (hf : ∀ y ∈ xs, (∃ z, f y = .ok z) ∨ f y = .error .panic) (hx : x ∈ xs) (hfx : f x = .error .panic) :
    xs.mapM f = .error .panic := by
  induction xs with
  | nil => simp at hx
  | cons y ys ih =>
    rw [List.mapM_cons]
    rcases hf y (by simp) with ⟨z, hz⟩ | hz
    · rw [hz, res_bind_ok]
      rcases List.mem_cons.1 hx with rfl | hx
      · rw [hfx] at hz; simp at hz
      · rw [ih (fun y hy => hf y (by simp [hy])) hx]; rfl
    · rw [hz]; rfl

/-- **C21** (faults): a point that is at no vertex of one of its layers is a panic. -/
theorem C21_missing_panics (m : Mesh K) (sp : StitchPoints K) (oneWay : Bool) (sorter : Sorter)
    (e : (UInt8 × UInt8) × List (Vec2 K)) (he : e ∈ sp) (pt : Vec2 K) (hpt : pt ∈ e.2)
    (h : ¬ (SomeAt m e.1.1.toNat pt ∧ SomeAt m e.1.2.toNat pt)) :
    m.stitchAtPoints sorter sp oneWay = .error .panic := by
  have hpos : ∀ a q, (∃ z, m.positionOf a q = .ok z) ∨ m.positionOf a q = .error .panic := by
    intro a q
    by_cases h : SomeAt m a.toNat q
    · exact .inl (positionOf_some h).ex
    · exact .inr (positionOf_none h)
  have hpair : ∀ (d : (UInt8 × UInt8)) (q : Vec2 K), (∃ z, (do
        let f ← m.positionOf d.1 q
        let t ← m.positionOf d.2 q
        (.ok (f, t) : Res (Nat × Nat))) = .ok z) ∨ (do
        let f ← m.positionOf d.1 q
        let t ← m.positionOf d.2 q
        (.ok (f, t) : Res (Nat × Nat))) = .error .panic := by
    intro d q
    rcases hpos d.1 q with ⟨z, hz⟩ | hz
    · rcases hpos d.2 q with ⟨w, hw⟩ | hw
      · rw [hz, hw]; exact .inl ⟨_, rfl⟩
      · rw [hz, hw]; exact .inr rfl
    · rw [hz]; exact .inr rfl
  have hbad : (do
        let f ← m.positionOf e.1.1 pt
        let t ← m.positionOf e.1.2 pt
        (.ok (f, t) : Res (Nat × Nat))) = .error .panic := by
    rcases hpair e.1 pt with ⟨z, hz⟩ | hz
    · exfalso
      simp only [bind_eq_ok, positionOf_iff] at hz
      obtain ⟨f, ⟨l, v, h1, h2, h3, -⟩, t, ⟨l', v', h1', h2', h3', -⟩, -⟩ := hz
      exact h ⟨⟨l, v, h1, List.mem_of_getElem? h2, h3⟩, ⟨l', v', h1', List.mem_of_getElem? h2', h3'⟩⟩
    · exact hz
  have hany : ∀ (d : (UInt8 × UInt8) × List (Vec2 K)), (∃ z, (do
        let ps ← d.2.mapM (fun point => do
          let f ← m.positionOf d.1.1 point
          let t ← m.positionOf d.1.2 point
          (.ok (f, t) : Res (Nat × Nat)))
        (.ok (d.1, ps) : Res ((UInt8 × UInt8) × List (Nat × Nat)))) = .ok z) ∨ (do
        let ps ← d.2.mapM (fun point => do
          let f ← m.positionOf d.1.1 point
          let t ← m.positionOf d.1.2 point
          (.ok (f, t) : Res (Nat × Nat)))
        (.ok (d.1, ps) : Res ((UInt8 × UInt8) × List (Nat × Nat)))) = .error .panic := by
    intro d
    by_cases hall : ∀ q ∈ d.2, Safe (do
          let f ← m.positionOf d.1.1 q
          let t ← m.positionOf d.1.2 q
          (.ok (f, t) : Res (Nat × Nat)))
    · obtain ⟨ps, hps⟩ := (safe_mapM _ hall).ex
      rw [hps]; exact .inl ⟨_, rfl⟩
    · push Not at hall
      obtain ⟨q, hq, hns⟩ := hall
      rcases hpair d.1 q with hz | hz
      · exact absurd ⟨hz⟩ hns
      · rw [mapM_panic (fun y _ => hpair d.1 y) hq hz]; exact .inr rfl
  have : m.toStitchVertices sp = .error .panic := by
    unfold Mesh.toStitchVertices
    refine mapM_panic (fun d _ => hany d) he ?_
    rw [mapM_panic (fun y _ => hpair e.1 y) hpt hbad]; rfl
  unfold Mesh.stitchAtPoints
  rw [this]; rfl

/-- **C21** (together): stitching at the points that were found never panics. -/
theorem C21_found_points [EqLaws K] (m : Mesh K) (hm : m.Unstitched) (oneWay : Bool) (sorter : Sorter) (hsort : sorter.Ok) :
    ∃ sv m', AtPoints m m.findStitchPoints sv ∧ m.stitchAtPoints sorter m.findStitchPoints oneWay = .ok m' ∧
      SameShape m m' ∧ StitchedBy m m' sv oneWay ∧
      (∀ l ∈ m'.layers, ∀ v ∈ l.vertices, (v.isCorner = true ↔ u32Max ∈ v.polygons)) := by
  obtain ⟨-, h2, -⟩ := C21_find m hm.layers
  refine C21_stitch_at_points m hm _ ?_ ?_ oneWay sorter hsort
  · intro e he h
    have := (h2 e he).1
    rw [h, UInt8.lt_iff_toNat_lt] at this
    omega
  · intro e he pt hpt
    obtain ⟨l, l', v, w, hl, hl', hv, hw, hvw, rfl⟩ := ((h2 e he).2.2 pt).1 hpt
    have hvw' : (v.coords.x ==. w.coords.x) = true ∧ (v.coords.y ==. w.coords.y) = true := by
      unfold Vec2.beq at hvw
      simpa using hvw
    refine ⟨⟨l, v, hl, hv, ?_⟩, ⟨l', w, hl', hw, ?_⟩⟩
    · unfold Vec2.beq
      rw [EqLaws.refl_left _ _ hvw'.1, EqLaws.refl_left _ _ hvw'.2]; rfl
    · unfold Vec2.beq
      rw [EqLaws.symm _ _ hvw'.1, EqLaws.symm _ _ hvw'.2]; rfl

end Polyanya
