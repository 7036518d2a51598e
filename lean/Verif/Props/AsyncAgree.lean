import Verif.Proofs.Safe
import Verif.Props.Small
import Verif.Props.Safety
/-
Property C35: the future of `get_path` agrees with the blocking `path`.
-/

namespace Polyanya

variable {K : Type} [Scalar K]

/-- The future, polled `k` times, returns `r` at the last of these polls (and `Pending` before). -/
inductive ResolvesIn (bvh : Bvh K) (heap : Heap K) (cfg : Cfg) (m : Mesh K) :
    Nat → FuturePath K → Option (Path K) → Prop where
  | ready {f f' : FuturePath K} {r : Option (Path K)} :
      f.poll bvh heap cfg m = .ok (.ready r, f') → ResolvesIn bvh heap cfg m 1 f r
  | pending {k : Nat} {f f' : FuturePath K} {w : Bool} {r : Option (Path K)} :
      f.poll bvh heap cfg m = .ok (.pending w, f') → ResolvesIn bvh heap cfg m k f' r →
      ResolvesIn bvh heap cfg m (k + 1) f r

theorem Resolves.in {bvh : Bvh K} {heap : Heap K} {cfg : Cfg} {m : Mesh K} {f : FuturePath K}
    {r : Option (Path K)} (h : Resolves bvh heap cfg m f r) : ∃ k, ResolvesIn bvh heap cfg m k f r := by
  induction h with
  | ready h => exact ⟨1, .ready h⟩
  | pending h _ ih => exact ih.elim fun k hk => ⟨k + 1, .pending h hk⟩

/-- The lookup used by `get_path` (`get_point_location`) and the one used by `path`
(`get_closest_point`) agree on the point: same polygon, or both find nothing. -/
def LookupsAgree (m : Mesh K) (bvh : Bvh K) (pt : Vec2 K) : Prop :=
  ∃ id, m.getPointLocation bvh (Coords.onMesh pt) = .ok id ∧
    ((id ≠ u32Max ∧ ∃ c, m.getClosestPoint bvh (Coords.onMesh pt) = .ok (some c) ∧ c.polygonIndex = id) ∨
     (id = u32Max ∧ m.getClosestPoint bvh (Coords.onMesh pt) = .ok none))

/-! The search, step by step -/

theorem next_notFound {heap : Heap K} {cfg : Cfg} {m : Mesh K} {inst inst' : Inst K}
    (h : inst.next heap cfg m = .ok (.notFound, inst')) : heap.pop inst.queue = none ∧ inst' = inst := by
  unfold Inst.next at h
  split at h
  · simp only [Except.ok.injEq, Prod.mk.injEq, true_and] at h
    exact ⟨‹_›, h.symm⟩
  · simp only at h
    split at h
    · simp at h
    · split at h
      · simp [bind_eq_ok] at h
      · simp [bind_eq_ok] at h

theorem searchLoop_empty {heap : Heap K} {cfg : Cfg} {m : Mesh K} {inst : Inst K}
    (h : heap.pop inst.queue = none) : ∀ n, searchLoop heap cfg m n inst [] = .ok (.inr []) := by
  have hn : inst.next heap cfg m = .ok (.notFound, inst) := by
    unfold Inst.next; rw [h]
  intro n
  induction n with
  | zero => rfl
  | succ n ih =>
    unfold searchLoop
    rw [hn]
    exact ih

/-- The blocking search loop, in terms of the first outcome within `n` steps. -/
theorem searchLoop_pollSteps {heap : Heap K} {cfg : Cfg} {m : Mesh K} (hd : cfg.detailed = false) :
    ∀ (n : Nat) (inst : Inst K), searchLoop heap cfg m n inst [] =
      (pollSteps heap cfg m n inst >>= fun r => .ok (match r.1 with
        | some (some p) => .inl p
        | _ => .inr [])) := by
  intro n
  induction n with
  | zero => intro inst; rfl
  | succ n ih =>
    intro inst
    unfold searchLoop pollSteps
    cases hnx : inst.next heap cfg m with
    | error e => rfl
    | ok r =>
      obtain ⟨st, inst'⟩ := r
      simp only [res_bind_ok]
      cases st with
      | found p => simp [hd]
      | notFound =>
        obtain ⟨h1, rfl⟩ := next_notFound hnx
        simp [searchLoop_empty h1]
      | «continue» => simpa using ih inst'

theorem pollSteps_add {heap : Heap K} {cfg : Cfg} {m : Mesh K} (a b : Nat) (inst : Inst K) :
    pollSteps heap cfg m (a + b) inst = (pollSteps heap cfg m a inst >>= fun r =>
      match r.1 with
      | some x => .ok (some x, r.2)
      | none => pollSteps heap cfg m b r.2) := by
  induction a generalizing inst with
  | zero => rw [Nat.zero_add]; rfl
  | succ a ih =>
    rw [Nat.succ_add]
    simp only [Nat.succ_eq_add_one, pollSteps]
    cases hnx : inst.next heap cfg m with
    | error e => rfl
    | ok r =>
      obtain ⟨st, inst'⟩ := r
      simp only [res_bind_ok]
      cases st with
      | found p => rfl
      | notFound => rfl
      | «continue» => exact ih inst'

theorem pollSteps_mono {heap : Heap K} {cfg : Cfg} {m : Mesh K} {n n' : Nat} (hn : n ≤ n')
    {inst i : Inst K} {x : Option (Path K)} (h : pollSteps heap cfg m n inst = .ok (some x, i)) :
    pollSteps heap cfg m n' inst = .ok (some x, i) := by
  obtain ⟨b, rfl⟩ := Nat.exists_eq_add_of_le hn
  rw [pollSteps_add, h]
  rfl

/-- A future in the middle of a search resolves after `k` polls iff `3 k` steps give an outcome. -/
theorem resolvesIn_search {bvh : Bvh K} {heap : Heap K} {cfg : Cfg} {m : Mesh K} :
    ∀ (k : Nat) (f : FuturePath K) (inst : Inst K) (r : Option (Path K)), f.instance? = some inst →
      ResolvesIn bvh heap cfg m k f r → ∃ i, pollSteps heap cfg m (3 * k) inst = .ok (some r, i) := by
  intro k f inst r hf h
  induction h generalizing inst with
  | @ready f f' r h =>
    unfold FuturePath.poll at h
    rw [hf] at h
    simp only [bind_eq_ok] at h
    obtain ⟨⟨x, i⟩, h1, h2⟩ := h
    cases x with
    | none => simp at h2
    | some x =>
      simp only [Except.ok.injEq, Prod.mk.injEq, Poll.ready.injEq] at h2
      obtain ⟨rfl, -⟩ := h2
      exact ⟨i, h1⟩
  | @pending k f f' w r h _ ih =>
    unfold FuturePath.poll at h
    rw [hf] at h
    simp only [bind_eq_ok] at h
    obtain ⟨⟨x, i⟩, h1, h2⟩ := h
    cases x with
    | some x => simp at h2
    | none =>
      simp only [Except.ok.injEq, Prod.mk.injEq] at h2
      obtain ⟨-, rfl⟩ := h2
      obtain ⟨j, hj⟩ := ih i rfl
      refine ⟨j, ?_⟩
      rw [show 3 * (k + 1) = 3 + 3 * k by omega, pollSteps_add, h1]
      exact hj

theorem resolves_of_pollSteps {bvh : Bvh K} {heap : Heap K} {cfg : Cfg} {m : Mesh K} :
    ∀ (k : Nat) (f : FuturePath K) (inst i : Inst K) (r : Option (Path K)), f.instance? = some inst →
      pollSteps heap cfg m (3 * k) inst = .ok (some r, i) → Resolves bvh heap cfg m f r := by
  intro k
  induction k with
  | zero => intro f inst i r _ h; simp [pollSteps] at h
  | succ k ih =>
    intro f inst i r hf h
    rw [show 3 * (k + 1) = 3 + 3 * k by omega, pollSteps_add, bind_eq_ok] at h
    obtain ⟨⟨x, i'⟩, h1, h2⟩ := h
    cases x with
    | some x =>
      simp only [Except.ok.injEq, Prod.mk.injEq, Option.some.injEq] at h2
      obtain ⟨rfl, rfl⟩ := h2
      refine .ready (f' := { f with instance? := some i' }) ?_
      unfold FuturePath.poll
      rw [hf]
      simp only [h1, res_bind_ok]
    | none =>
      refine .pending (f' := { f with instance? := some i' }) (w := true) ?_ (ih _ i' i r rfl h2)
      unfold FuturePath.poll
      rw [hf]
      simp only [h1, res_bind_ok]

/-- On a single layer, an id found by `get_closest_point` is the plain index of a polygon. -/
theorem closest_single {m : Mesh K} {bvh : Bvh K} {l : Layer K} (hl : m.layers = [l]) (hm : m.Sized)
    {c c' : Coords K} (h : m.getClosestPoint bvh c = .ok (some c')) :
    c'.polygonIndex.toNat < l.polygons.length := by
  obtain ⟨step, j, l', np, r, -, hj, -, hi, rfl⟩ := closestLoop_found h
  obtain ⟨h2, h3⟩ := closestInner_found hi
  rw [hl] at hj
  have := lt_of_getElem? hj
  simp only [List.length_singleton, Nat.lt_one_iff] at this
  subst this
  simp only [List.getElem?_cons_zero, Option.some.injEq] at hj
  subst hj
  have hsz := hm l (by rw [hl]; simp)
  have hr := locate_lt hsz h2 h3
  rw [packId_toNat _ _ (by omega)]
  simpa using hr

/-- The island tests of both queries agree for the polygons where the points are located. -/
def IslandTestsAgree (m : Mesh K) (bvh : Bvh K) (src dst : Vec2 K) : Prop :=
  ∀ s e, m.getPointLocation bvh (Coords.onMesh src) = .ok s → s ≠ u32Max →
    m.endpointPolygon bvh (Coords.onMesh src) = .ok (some s) →
    m.getPointLocation bvh (Coords.onMesh dst) = .ok e → e ≠ u32Max →
    m.endpointPolygon bvh (Coords.onMesh dst) = .ok (some e) →
    m.islandsDifferAsync s e = m.islandsDiffer s e

/-- On a single layer the island tests are the same. -/
theorem islandTests_single {bvh : Bvh K} {m : Mesh K} {l : Layer K} (hl : m.layers = [l]) (hm : m.Sized)
    (src dst : Vec2 K) : IslandTestsAgree m bvh src dst := by
  intro s e _ _ es _ _ ee
  have hep : ∀ (v : Vec2 K) (id : UInt32), m.endpointPolygon bvh (Coords.onMesh v) = .ok (some id) →
      id.toNat < l.polygons.length := by
    intro v id h
    unfold Mesh.endpointPolygon at h
    simp only [Coords.onMesh, ne_eq, not_true_eq_false, if_false, bind_eq_ok] at h
    obtain ⟨c, hc, h⟩ := h
    cases c with
    | none => simp at h
    | some c =>
      simp only [Option.map_some, Except.ok.injEq, Option.some.injEq] at h
      subst h
      exact closest_single hl hm hc
  have lss := hep _ _ es
  have lee := hep _ _ ee
  have hsz := hm l (by rw [hl]; simp)
  have hzero : ∀ id : UInt32, id.toNat < l.polygons.length → layerOf id = 0 ∧ (polygonOf id).toNat = id.toNat := by
    intro id hid
    rw [polygonOf_toNat, ← UInt8.toNat_inj, layerOf_toNat]
    unfold idPolygon idLayer
    have h0 : (0 : UInt8).toNat = 0 := rfl
    rw [h0]
    omega
  unfold Mesh.islandsDifferAsync Mesh.islandsDiffer
  obtain ⟨a1, a2⟩ := hzero s lss
  obtain ⟨b1, b2⟩ := hzero e lee
  rw [a1, b1, a2, b2, hl]
  rfl

/-- Without baked islands there is nothing to test. -/
theorem islandTests_none {cfg : Cfg} {bvh : Bvh K} {m : Mesh K} (hm : m.WF cfg)
    (hn : ∀ l ∈ m.layers, l.islands = none) (src dst : Vec2 K) : IslandTestsAgree m bvh src dst := by
  intro s e hs hsm _ _ _ _
  obtain ⟨l, p, hl, -⟩ := getPointLocation_hasPolygon hm hs hsm
  rw [← layerOf_toNat] at hl
  have h1 := hn l (List.mem_of_getElem? hl)
  have h2 : idx m.layers (layerOf s).toNat = .ok l := idx_eq_ok.2 hl
  unfold Mesh.islandsDifferAsync Mesh.islandsDiffer
  rw [h2]
  simp [h1]

/-- The state of both queries once the lookups agree. -/
theorem agree_cases {bvh : Bvh K} {heap : Heap K} {cfg : Cfg} {m : Mesh K} {src dst : Vec2 K}
    (hd : cfg.detailed = false) (hs : LookupsAgree m bvh src) (he : LookupsAgree m bvh dst)
    (htests : IslandTestsAgree m bvh src dst) :
    (∃ r f', (Mesh.getPath src dst).poll bvh heap cfg m = .ok (.ready r, f') ∧
      m.path bvh heap cfg (Coords.onMesh src) (Coords.onMesh dst) = .ok r) ∨
    (∃ e, (Mesh.getPath src dst).poll bvh heap cfg m = .error e ∧
      m.path bvh heap cfg (Coords.onMesh src) (Coords.onMesh dst) = .error e) ∨
    (∃ inst f', (Mesh.getPath src dst).poll bvh heap cfg m = .ok (.pending true, f') ∧
      f'.instance? = some inst ∧
      m.path bvh heap cfg (Coords.onMesh src) (Coords.onMesh dst) =
        (pollSteps heap cfg m m.stepBudget inst >>= fun r => .ok (r.1.getD none))) := by
  obtain ⟨s, hs1, hs2⟩ := hs
  obtain ⟨e, he1, he2⟩ := he
  have hon : ∀ v : Vec2 K, (Coords.onMesh v).polygonIndex = u32Max := fun _ => rfl
  have hep : ∀ (v : Vec2 K) (id : UInt32), ((id ≠ u32Max ∧ ∃ c, m.getClosestPoint bvh (Coords.onMesh v) =
      .ok (some c) ∧ c.polygonIndex = id) ∨
      (id = u32Max ∧ m.getClosestPoint bvh (Coords.onMesh v) = .ok none)) →
      m.endpointPolygon bvh (Coords.onMesh v) = .ok (if id = u32Max then none else some id) := by
    rintro v id (⟨hne, c, hc, rfl⟩ | ⟨rfl, hc⟩)
    · unfold Mesh.endpointPolygon
      simp [hon, hc, hne]
    · unfold Mesh.endpointPolygon
      simp [hon, hc]
  have es := hep src s hs2
  have ee := hep dst e he2
  have hpoll : (Mesh.getPath src dst).poll bvh heap cfg m = (do
    let s ← m.getPointLocation bvh (Coords.onMesh src)
    if s = u32Max then .ok (.ready none, Mesh.getPath src dst)
    else
      let e ← m.getPointLocation bvh (Coords.onMesh dst)
      if e = u32Max then .ok (.ready none, Mesh.getPath src dst)
      else if ← m.islandsDifferAsync s e then .ok (.ready none, Mesh.getPath src dst)
      else if s = e then
        .ok (.ready (some { length := src.distance dst, path := [dst],
                            pathWithLayers := if cfg.detailed then [(dst, layerOf e)] else [] }),
          Mesh.getPath src dst)
      else
        let inst ← Inst.setup cfg m (src, s) (dst, e) []
        .ok (.pending true, { Mesh.getPath src dst with instance? := some inst, endingPolygon := e })) := by
    rfl
  rw [hpoll, hs1]
  unfold Mesh.path Mesh.pathOnLayers
  rw [es]
  simp only [res_bind_ok]
  by_cases hsm : s = u32Max
  · left; simp [hsm]
  simp only [if_neg hsm, he1, res_bind_ok, ee]
  by_cases hem : e = u32Max
  · left; simp [hem]
  simp only [if_neg hem]
  have hisl := htests s e hs1 hsm (by rw [es, if_neg hsm]) he1 hem (by rw [ee, if_neg hem])
  unfold Mesh.pathBetween
  rw [hisl]
  cases hid : m.islandsDiffer s e with
  | error f => right; left; exact ⟨f, rfl, rfl⟩
  | ok b =>
    simp only [res_bind_ok]
    cases b with
    | true => left; exact ⟨none, _, rfl, rfl⟩
    | false =>
      by_cases hse : s = e
      · left
        simp only [hse, if_true]
        exact ⟨_, _, rfl, rfl⟩
      · simp only [if_neg hse]
        cases hset : Inst.setup cfg m (src, s) (dst, e) [] with
        | error f =>
          right; left
          refine ⟨f, ?_, ?_⟩
          · simp only [Bool.false_eq_true, if_false, res_bind_error]
          · simp only [Bool.false_eq_true, if_false, Coords.onMesh, hset, res_bind_error]
        | ok inst =>
          right; right
          refine ⟨inst, { Mesh.getPath src dst with instance? := some inst, endingPolygon := e },
            by simp only [Bool.false_eq_true, if_false, res_bind_ok], rfl, ?_⟩
          simp only [Bool.false_eq_true, if_false, Coords.onMesh, hset, res_bind_ok,
            searchLoop_pollSteps hd]
          cases pollSteps heap cfg m m.stepBudget inst with
          | error f => rfl
          | ok r =>
            obtain ⟨x, i⟩ := r
            simp only [res_bind_ok]
            rcases x with _ | _ | p <;> simp [pickPath, hd]

variable {bvh : Bvh K} {heap : Heap K} {cfg : Cfg} {m : Mesh K} {l : Layer K} {src dst : Vec2 K}

theorem future_agrees (hd : cfg.detailed = false) (htests : IslandTestsAgree m bvh src dst)
    (hs : LookupsAgree m bvh src) (he : LookupsAgree m bvh dst)
    (k : Nat) (r : Option (Path K)) (h : ResolvesIn bvh heap cfg m k (Mesh.getPath src dst) r)
    (hk : 3 * (k - 1) ≤ m.stepBudget) :
    m.path bvh heap cfg (Coords.onMesh src) (Coords.onMesh dst) = .ok r := by
  rcases agree_cases (heap := heap) hd hs he htests with ⟨r', f', h1, h2⟩ | ⟨e, h1, h2⟩ | ⟨inst, f', h1, h2, h3⟩
  · cases h with
    | ready h => rw [h1] at h; simp at h; rw [h2, h.1]
    | pending h _ => rw [h1] at h; simp at h
  · cases h with
    | ready h => rw [h1] at h; simp at h
    | pending h _ => rw [h1] at h; simp at h
  · cases h with
    | ready h => rw [h1] at h; simp at h
    | @pending k _ f'' _ _ h hr =>
      rw [h1] at h
      simp only [Except.ok.injEq, Prod.mk.injEq] at h
      obtain ⟨-, rfl⟩ := h
      obtain ⟨i, hi⟩ := resolvesIn_search k f' inst r h2 hr
      have := pollSteps_mono (n' := m.stepBudget) (by omega) hi
      rw [h3, this]
      rfl

theorem blocking_path_is_found (hd : cfg.detailed = false) (htests : IslandTestsAgree m bvh src dst)
    (hs : LookupsAgree m bvh src) (he : LookupsAgree m bvh dst)
    (p : Path K)
    (h : m.path bvh heap cfg (Coords.onMesh src) (Coords.onMesh dst) = .ok (some p)) :
    Resolves bvh heap cfg m (Mesh.getPath src dst) (some p) ∧
    ∀ r, Resolves bvh heap cfg m (Mesh.getPath src dst) r → r = some p := by
  have uniq : ∀ f r r', Resolves bvh heap cfg m f r → Resolves bvh heap cfg m f r' → r = r' := by
    intro f r r' h
    induction h with
    | ready h =>
      intro h'
      cases h' with
      | ready h' => rw [h] at h'; simp at h'; exact h'.1
      | pending h' _ => rw [h] at h'; simp at h'
    | pending h _ ih =>
      intro h'
      cases h' with
      | ready h' => rw [h] at h'; simp at h'
      | pending h' hr =>
        rw [h] at h'
        simp only [Except.ok.injEq, Prod.mk.injEq] at h'
        exact ih (h'.2 ▸ hr)
  have hr : Resolves bvh heap cfg m (Mesh.getPath src dst) (some p) := by
    rcases agree_cases (heap := heap) hd hs he htests with
      ⟨r', f', h1, h2⟩ | ⟨e, h1, h2⟩ | ⟨inst, f', h1, h2, h3⟩
    · rw [h] at h2
      simp only [Except.ok.injEq] at h2
      exact .ready (h2 ▸ h1)
    · rw [h] at h2; simp at h2
    · rw [h3, bind_eq_ok] at h
      obtain ⟨⟨x, i⟩, h4, h5⟩ := h
      simp only [Except.ok.injEq] at h5
      cases x with
      | none => simp at h5
      | some x =>
        simp only [Option.getD_some] at h5
        subst h5
        exact .pending h1 (resolves_of_pollSteps m.stepBudget f' inst i _ h2
          (pollSteps_mono (by omega) h4))
  exact ⟨hr, fun r h' => uniq _ _ _ h' hr⟩

theorem no_path_agrees (hd : cfg.detailed = false) (htests : IslandTestsAgree m bvh src dst)
    (hs : LookupsAgree m bvh src) (he : LookupsAgree m bvh dst)
    (h : Resolves bvh heap cfg m (Mesh.getPath src dst) none) :
    m.path bvh heap cfg (Coords.onMesh src) (Coords.onMesh dst) = .ok none := by
  obtain ⟨k, h⟩ := h.in
  rcases agree_cases (heap := heap) hd hs he htests with ⟨r', f', h1, h2⟩ | ⟨e, h1, h2⟩ | ⟨inst, f', h1, h2, h3⟩
  · cases h with
    | ready h => rw [h1] at h; simp at h; rw [h2, h.1]
    | pending h _ => rw [h1] at h; simp at h
  · cases h with
    | ready h => rw [h1] at h; simp at h
    | pending h _ => rw [h1] at h; simp at h
  · cases h with
    | ready h => rw [h1] at h; simp at h
    | @pending k _ f'' _ _ h hr =>
      rw [h1] at h
      simp only [Except.ok.injEq, Prod.mk.injEq] at h
      obtain ⟨-, rfl⟩ := h
      obtain ⟨i, hi⟩ := resolvesIn_search k f' inst none h2 hr
      rw [h3]
      -- no outcome other than "nothing" is reached within the budget
      have hmax := pollSteps_mono (n' := max (3 * k) m.stepBudget) (by omega) hi
      obtain ⟨b, hb⟩ := Nat.exists_eq_add_of_le (Nat.le_max_right (3 * k) m.stepBudget)
      rw [hb, pollSteps_add, bind_eq_ok] at hmax
      obtain ⟨⟨x, i'⟩, h4, h5⟩ := hmax
      rw [h4]
      cases x with
      | none => rfl
      | some x =>
        simp only [Except.ok.injEq, Prod.mk.injEq, Option.some.injEq] at h5
        rw [h5.1]
        rfl

/-! ### C35 -/

theorem sized_single (hl : m.layers = [l]) (hm : l.polygons.length ≤ 2 ^ 24 - 1) : m.Sized := by
  intro l' hl'
  rw [hl] at hl'
  simp at hl'
  rw [hl']
  exact hm

/-- C35: on a single-layer mesh (default features), when both lookups agree at both ends, a future that
resolves at its `k`-th poll gives the result of the blocking query, provided the `3 (k - 1)` search steps
taken do not exceed the step budget of the blocking query (10 per polygon). -/
theorem C35_future_agrees (hd : cfg.detailed = false) (hl : m.layers = [l])
    (hm : l.polygons.length ≤ 2 ^ 24 - 1) (hs : LookupsAgree m bvh src) (he : LookupsAgree m bvh dst)
    (k : Nat) (r : Option (Path K)) (h : ResolvesIn bvh heap cfg m k (Mesh.getPath src dst) r)
    (hk : 3 * (k - 1) ≤ l.polygons.length * 10) :
    m.path bvh heap cfg (Coords.onMesh src) (Coords.onMesh dst) = .ok r :=
  future_agrees hd (islandTests_single hl (sized_single hl hm) _ _) hs he k r h
    (by unfold Mesh.stepBudget; rw [hl]; simpa using hk)

/-- C35: whatever the blocking query finds, the future finds too (no bound needed). -/
theorem C35_blocking_path_is_found (hd : cfg.detailed = false) (hl : m.layers = [l])
    (hm : l.polygons.length ≤ 2 ^ 24 - 1) (hs : LookupsAgree m bvh src) (he : LookupsAgree m bvh dst)
    (p : Path K)
    (h : m.path bvh heap cfg (Coords.onMesh src) (Coords.onMesh dst) = .ok (some p)) :
    Resolves bvh heap cfg m (Mesh.getPath src dst) (some p) ∧
    ∀ r, Resolves bvh heap cfg m (Mesh.getPath src dst) r → r = some p :=
  blocking_path_is_found hd (islandTests_single hl (sized_single hl hm) _ _) hs he p h

/-- C35: if the future finds no path, neither does the blocking query (no bound needed). -/
theorem C35_no_path_agrees (hd : cfg.detailed = false) (hl : m.layers = [l])
    (hm : l.polygons.length ≤ 2 ^ 24 - 1) (hs : LookupsAgree m bvh src) (he : LookupsAgree m bvh dst)
    (h : Resolves bvh heap cfg m (Mesh.getPath src dst) none) :
    m.path bvh heap cfg (Coords.onMesh src) (Coords.onMesh dst) = .ok none :=
  no_path_agrees hd (islandTests_single hl (sized_single hl hm) _ _) hs he h

/-! ### C58 -/

/-- C58: the same for any number of layers, if no islands are baked. -/
theorem C58_future_agrees (hd : cfg.detailed = false) (hm : m.WF cfg) (hn : ∀ l ∈ m.layers, l.islands = none)
    (hs : LookupsAgree m bvh src) (he : LookupsAgree m bvh dst)
    (k : Nat) (r : Option (Path K)) (h : ResolvesIn bvh heap cfg m k (Mesh.getPath src dst) r)
    (hk : 3 * (k - 1) ≤ (m.layers.map (·.polygons.length)).sum * 10) :
    m.path bvh heap cfg (Coords.onMesh src) (Coords.onMesh dst) = .ok r :=
  future_agrees hd (islandTests_none hm hn _ _) hs he k r h hk

/-- C58: whatever the blocking query finds, the future finds too. -/
theorem C58_blocking_path_is_found (hd : cfg.detailed = false) (hm : m.WF cfg)
    (hn : ∀ l ∈ m.layers, l.islands = none) (hs : LookupsAgree m bvh src) (he : LookupsAgree m bvh dst)
    (p : Path K)
    (h : m.path bvh heap cfg (Coords.onMesh src) (Coords.onMesh dst) = .ok (some p)) :
    Resolves bvh heap cfg m (Mesh.getPath src dst) (some p) ∧
    ∀ r, Resolves bvh heap cfg m (Mesh.getPath src dst) r → r = some p :=
  blocking_path_is_found hd (islandTests_none hm hn _ _) hs he p h

/-- C58: if the future finds no path, neither does the blocking query. -/
theorem C58_no_path_agrees (hd : cfg.detailed = false) (hm : m.WF cfg)
    (hn : ∀ l ∈ m.layers, l.islands = none) (hs : LookupsAgree m bvh src) (he : LookupsAgree m bvh dst)
    (h : Resolves bvh heap cfg m (Mesh.getPath src dst) none) :
    m.path bvh heap cfg (Coords.onMesh src) (Coords.onMesh dst) = .ok none :=
  no_path_agrees hd (islandTests_none hm hn _ _) hs he h

end Polyanya

namespace Polyanya

/-- Non-vacuity: on the L-shaped mesh, both lookups agree at (0.5, 1.5) and (1.5, 0.5), the blocking query
finds a path around the corner, and so does the future. -/
theorem ex_lookups : LookupsAgree exMesh allBvh (v2 (1/2) (3/2)) ∧ LookupsAgree exMesh allBvh (v2 (3/2) (1/2)) :=
  ⟨⟨2, by decide +kernel, .inl ⟨by decide, ⟨v2 (1/2) (3/2), some 0, 2⟩, by decide +kernel, rfl⟩⟩,
   ⟨1, by decide +kernel, .inl ⟨by decide, ⟨v2 (3/2) (1/2), some 0, 1⟩, by decide +kernel, rfl⟩⟩⟩

example : ∃ p, Resolves allBvh ratHeap ⟨false⟩ exMesh (Mesh.getPath (v2 (1/2) (3/2)) (v2 (3/2) (1/2))) (some p) := by
  obtain ⟨r, hr, hp⟩ := of_resIs (x := exMesh.path allBvh ratHeap ⟨false⟩ (Coords.onMesh (v2 (1/2) (3/2)))
    (Coords.onMesh (v2 (3/2) (1/2)))) (f := Option.isSome) (by decide +kernel)
  obtain ⟨p, rfl⟩ := Option.isSome_iff_exists.1 hp
  exact ⟨p, (C35_blocking_path_is_found rfl rfl (by decide +kernel) ex_lookups.1 ex_lookups.2 p hr).1⟩

end Polyanya
