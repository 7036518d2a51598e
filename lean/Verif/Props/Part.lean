import Verif.Spec.Part
import Verif.Props.Unordered
import Verif.Props.BakedRenumbered
import Verif.Props.AsyncAgree
/-
C88: parts of a mesh that cannot be reached do not matter.
-/

namespace Polyanya

set_option linter.unusedSectionVars false

variable {K : Type} [Scalar K] {m m' : Mesh K} {π : UInt32 → UInt32} {B B' : List UInt8} {P : UInt32 → Prop}

theorem PartAs.renum {cfg : Cfg} (h : PartAs π P m m') (hc : m.Closed P) (hB : BlockedIn π P B B')
    (hd : cfg.detailed = true → (∀ q, layerOf (π q) = layerOf q) ∧ SameScales m m' ∧ m.SmallNumbers ∧ m'.SmallNumbers) :
    Renum cfg (ListsAs π) π m m' B B' P := by
  have hblocked : ∀ q, q = u32Max ∨ P q → (layerOf (π q) ∈ B' ↔ layerOf q ∈ B) := by
    rintro q (rfl | hq)
    · rw [h.outside]; exact hB.outside
    · exact hB.polygon q hq
  -- a mesh without polygons, for the lemmas about lists of numbers
  have h0 : SamePolygons π (Mesh.ofLayers [] : Mesh K) (Mesh.ofLayers []) :=
    ⟨h.injective, h.outside, rfl, fun id l p hp => by
      have := hp.1
      simp [Mesh.ofLayers] at this⟩
  refine {
    injective := h.injective
    outside := h.outside
    has := hc.has
    polygons := ?_
    lists := hc.lists
    blocked := hblocked
    turn := ?_
    layer := fun hc => (hd hc).1
    scale := fun hc => (hd hc).2.1
    other := fun _ _ _ _ _ _ _ _ _ _ _ _ _ _ hx hy => otherSideOf_to h0 hx.1 hy.1 _ }
  · intro id l p hP hp
    obtain ⟨l', p', hp', h1, h2⟩ := h.polygons id l p hP hp
    refine ⟨l', p', hp', h1, (forall₂_withBoth h2).imp ?_⟩
    rintro v v' ⟨⟨x, x', a1, a2, a3, a4, a5⟩, hv, hv'⟩
    refine ⟨x, x', a1, a2, a3, ⟨a4, a5⟩, fun hc => ?_⟩
    obtain ⟨-, -, k, k'⟩ := hd hc
    rw [layerOf_lt24 (k l (List.mem_of_getElem? hp.1) p (List.mem_of_getElem? hp.2) v hv),
      layerOf_lt24 (k' l' (List.mem_of_getElem? hp'.1) p' (List.mem_of_getElem? hp'.2) v' hv')]
  · rintro x x' ⟨hx, hcor⟩ hl
    rw [Bool.eq_iff_iff, turns_iff, turns_iff]
    unfold TurnsAt
    have hne : B' ≠ [] ↔ B ≠ [] := not_congr hB.any.symm
    rw [hcor, hx, hne]
    have : (∃ q ∈ x.polygons.map π, q = u32Max ∨ layerOf q ∈ B') ↔ ∃ q ∈ x.polygons, q = u32Max ∨ layerOf q ∈ B := by
      constructor
      · rintro ⟨q', hq', hh⟩
        obtain ⟨q, hq, rfl⟩ := List.mem_map.1 hq'
        exact ⟨q, hq, hh.imp (fun hh => h.injective (hh.trans h.outside.symm)) (hblocked q (hl q hq)).1⟩
      · rintro ⟨q, hq, hh⟩
        exact ⟨_, List.mem_map_of_mem hq, hh.imp (fun hh => by rw [hh, h.outside]) (hblocked q (hl q hq)).2⟩
    rw [this]

/-- More steps do not change a path that was found, with default features. -/
theorem searchLoop_more {heap : Heap K} {p : Path K} : ∀ (n k : Nat) (i : Inst K),
    searchLoop heap ⟨false⟩ m n i [] = .ok (.inl p) → searchLoop heap ⟨false⟩ m (n + k) i [] = .ok (.inl p) := by
  intro n
  induction n with
  | zero => intro k i h; rw [searchLoop] at h; cases h
  | succ n ih =>
    intro k i h
    rw [Nat.add_right_comm, searchLoop_succ]
    rw [searchLoop_succ] at h
    obtain ⟨⟨st, j⟩, hr, h⟩ := bind_eq_ok.1 h
    rw [hr, res_bind_ok]
    cases st with
    | found q => exact h
    | notFound => exact ih k j h
    | «continue» => exact ih k j h

/-- With default features, when nothing is found there is nothing to pick from. -/
theorem searchLoop_nothing {heap : Heap K} : ∀ (n : Nat) (i : Inst K) (ps : List (Path K)),
    searchLoop heap ⟨false⟩ m n i [] = .ok (.inr ps) → ps = [] := by
  intro n
  induction n with
  | zero => intro i ps h; rw [searchLoop] at h; cases h; rfl
  | succ n ih =>
    intro i ps h
    rw [searchLoop_succ] at h
    obtain ⟨⟨st, j⟩, hr, h⟩ := bind_eq_ok.1 h
    cases st with
    | found q => cases h
    | notFound => exact ih j ps h
    | «continue» => exact ih j ps h

theorem pathBetween_found {heap : Heap K} {a b : Vec2 K} {s e : UInt32} {p : Path K} :
    m.pathBetween heap ⟨false⟩ a b s e B = .ok (some p) ↔ m.islandsDiffer s e = .ok false ∧
      ((s = e ∧ p = { length := a.distance b, path := [b], pathWithLayers := [] }) ∨
        (s ≠ e ∧ ∃ i, Inst.setup ⟨false⟩ m (a, s) (b, e) B = .ok i ∧
          searchLoop heap ⟨false⟩ m m.stepBudget i [] = .ok (.inl p))) := by
  rw [pathBetween_eq]
  constructor
  · intro h
    obtain ⟨d, hd, h⟩ := bind_eq_ok.1 h
    unfold afterIslands at h
    cases d with
    | true => cases h
    | false =>
      refine ⟨hd, ?_⟩
      by_cases hse : s = e
      · rw [if_neg (by simp), if_pos hse] at h
        simp only [Except.ok.injEq, Option.some.injEq] at h
        exact .inl ⟨hse, h.symm⟩
      · rw [if_neg (by simp), if_neg hse] at h
        obtain ⟨i, hi, h⟩ := bind_eq_ok.1 h
        obtain ⟨r, hr, h⟩ := bind_eq_ok.1 h
        cases r with
        | inl q =>
          simp only [Except.ok.injEq, Option.some.injEq] at h
          subst h
          exact .inr ⟨hse, i, hi, hr⟩
        | inr ps =>
          rw [searchLoop_nothing _ _ _ hr] at h
          simp [pickPath] at h
  · rintro ⟨hd, h⟩
    rw [hd, res_bind_ok]
    unfold afterIslands
    rcases h with ⟨rfl, rfl⟩ | ⟨hse, i, hi, hr⟩
    · simp
    · rw [if_neg (by simp), if_neg hse, hi, res_bind_ok]
      simp only [hr, res_bind_ok]

theorem setup_part {cfg : Cfg} (hm : Renum cfg (ListsAs π) π m m' B B' P) (a b : Vec2 K) {s e : UInt32} (hs : P s) (he : P e) :
    RR (InstTo cfg (ListsAs π) P π m m' B B') (Inst.setup cfg m (a, s) (b, e) B) (Inst.setup cfg m' (a, π s) (b, π e) B') :=
  setup_to hm a b hs he

/-- The paths between known polygons. -/
theorem pathBetween_part {heap : Heap K} (hh : heap.ByCost) (hm : Renum ⟨false⟩ (ListsAs π) π m m' B B' P) (a b : Vec2 K) {s e : UInt32}
    (hs : P s) (he : P e) {p : Path K} :
    (m.polygonTotal ≤ m'.polygonTotal → m'.islandsDiffer (π s) (π e) = .ok false →
      m.pathBetween heap ⟨false⟩ a b s e B = .ok (some p) → m'.pathBetween heap ⟨false⟩ a b (π s) (π e) B' = .ok (some p)) ∧
    (m'.polygonTotal ≤ m.polygonTotal → m.islandsDiffer s e = .ok false →
      m'.pathBetween heap ⟨false⟩ a b (π s) (π e) B' = .ok (some p) → m.pathBetween heap ⟨false⟩ a b s e B = .ok (some p)) := by
  have hrel := setup_part hm a b hs he
  have more : ∀ (n : Mesh K) (k k' : Nat) (i : Inst K), k ≤ k' → searchLoop heap ⟨false⟩ n k i [] = .ok (.inl p) →
      searchLoop heap ⟨false⟩ n k' i [] = .ok (.inl p) := by
    intro n k k' i hk h
    obtain ⟨d, rfl⟩ := Nat.exists_eq_add_of_le hk
    exact searchLoop_more k d i h
  constructor
  · intro hcount hi' h
    obtain ⟨-, h⟩ := pathBetween_found.1 h
    refine pathBetween_found.2 ⟨hi', ?_⟩
    rcases h with ⟨rfl, rfl⟩ | ⟨hse, i, hi, hr⟩
    · exact .inl ⟨rfl, rfl⟩
    · rw [hi] at hrel
      cases hq : Inst.setup ⟨false⟩ m' (a, π s) (b, π e) B' with
      | error e => rw [hq] at hrel; cases hrel
      | ok i' =>
        rw [hq] at hrel
        cases hrel with
        | ok hii =>
          refine .inr ⟨fun hc => hse (hm.injective hc), i', rfl, ?_⟩
          refine more _ _ _ _ (Nat.mul_le_mul_right 10 hcount) ?_
          rw [searchLoop_to hh hm _ hii]
          exact hr
  · intro hcount hi' h
    obtain ⟨-, h⟩ := pathBetween_found.1 h
    refine pathBetween_found.2 ⟨hi', ?_⟩
    rcases h with ⟨hse, rfl⟩ | ⟨hse, i', hi, hr⟩
    · exact .inl ⟨hm.injective hse, rfl⟩
    · rw [hi] at hrel
      cases hq : Inst.setup ⟨false⟩ m (a, s) (b, e) B with
      | error e => rw [hq] at hrel; cases hrel
      | ok i =>
        rw [hq] at hrel
        cases hrel with
        | ok hii =>
          refine .inr ⟨fun hc => hse (by rw [hc]), i, rfl, ?_⟩
          refine more _ _ _ _ (Nat.mul_le_mul_right 10 hcount) ?_
          rw [← searchLoop_to hh hm _ hii]
          exact hr

/-- C88: a path that is found in a mesh is found in every other mesh that contains the part of the first mesh in which
the ends are, when nothing leads out of this part; the other mesh has no fewer polygons (the budget of a search grows
with their number), and its islands, if baked, do not differ. -/
theorem C88_path (bvh bvh' : Bvh K) {heap : Heap K} (hh : heap.ByCost) (h : PartAs π P m m') (hc : m.Closed P)
    (hB : BlockedIn π P B B') (src dst src' dst' : Coords K) (s e : UInt32) (hs : P s) (he : P e)
    (hsrc : Located m bvh src s) (hdst : Located m bvh dst e) (hsrc' : Located m' bvh' src' (π s))
    (hdst' : Located m' bvh' dst' (π e)) (h1 : src'.pos = src.pos) (h2 : dst'.pos = dst.pos)
    (hcount : m.polygonTotal ≤ m'.polygonTotal) (hi : m'.islandsDiffer (π s) (π e) = .ok false) (p : Path K)
    (hp : m.pathOnLayers bvh heap ⟨false⟩ src dst B = .ok (some p)) :
    m'.pathOnLayers bvh' heap ⟨false⟩ src' dst' B' = .ok (some p) := by
  unfold Mesh.pathOnLayers at hp ⊢
  rw [endpointPolygon_located.2 hsrc, res_bind_ok] at hp
  rw [endpointPolygon_located.2 hsrc', res_bind_ok]
  simp only at hp ⊢
  rw [endpointPolygon_located.2 hdst, res_bind_ok] at hp
  rw [endpointPolygon_located.2 hdst', res_bind_ok]
  simp only at hp ⊢
  rw [h1, h2]
  exact (pathBetween_part hh (h.renum hc hB (fun h => by cases h)) _ _ hs he).1 hcount hi hp

/-- C88: two meshes that contain the same part never give different paths between points of this part, whatever else
they contain. -/
theorem C88_agree (bvh bvh' : Bvh K) {heap : Heap K} (hh : heap.ByCost) (h : PartAs π P m m') (hc : m.Closed P)
    (hB : BlockedIn π P B B') (src dst src' dst' : Coords K) (s e : UInt32) (hs : P s) (he : P e)
    (hsrc : Located m bvh src s) (hdst : Located m bvh dst e) (hsrc' : Located m' bvh' src' (π s))
    (hdst' : Located m' bvh' dst' (π e)) (h1 : src'.pos = src.pos) (h2 : dst'.pos = dst.pos) (p q : Path K)
    (hp : m.pathOnLayers bvh heap ⟨false⟩ src dst B = .ok (some p))
    (hq : m'.pathOnLayers bvh' heap ⟨false⟩ src' dst' B' = .ok (some q)) : q = p := by
  have hm := h.renum (cfg := ⟨false⟩) hc hB (fun h => by cases h)
  unfold Mesh.pathOnLayers at hp hq
  rw [endpointPolygon_located.2 hsrc, res_bind_ok] at hp
  rw [endpointPolygon_located.2 hsrc', res_bind_ok] at hq
  simp only at hp hq
  rw [endpointPolygon_located.2 hdst, res_bind_ok] at hp
  rw [endpointPolygon_located.2 hdst', res_bind_ok] at hq
  simp only at hp hq
  rw [h1, h2] at hq
  rcases le_total m.polygonTotal m'.polygonTotal with hcount | hcount
  · have := (pathBetween_part hh hm _ _ hs he).1 hcount (pathBetween_found.1 hq).1 hp
    rw [hq] at this
    simpa using this
  · have := (pathBetween_part hh hm _ _ hs he).2 hcount (pathBetween_found.1 hp).1 hq
    rw [hp] at this
    simpa using this.symm

/-- C88, futures (which have no budget): they resolve to the same answers, in both builds. -/
theorem C88_future (bvh bvh' : Bvh K) {heap : Heap K} (hh : heap.ByCost) (cfg : Cfg)
    (hd : cfg.detailed = true → (∀ q, layerOf (π q) = layerOf q) ∧ SameScales m m' ∧ m.SmallNumbers ∧ m'.SmallNumbers)
    (h : PartAs π P m m') (hc : m.Closed P) (hi : m.NoIslands) (hi' : m'.NoIslands)
    (src dst : Vec2 K) (s e : UInt32) (hs : P s) (he : P e)
    (hsrc : m.getPointLocation bvh (Coords.onMesh src) = .ok s)
    (hdst : m.getPointLocation bvh (Coords.onMesh dst) = .ok e)
    (hsrc' : m'.getPointLocation bvh' (Coords.onMesh src) = .ok (π s))
    (hdst' : m'.getPointLocation bvh' (Coords.onMesh dst) = .ok (π e)) (r : Option (Path K)) :
    Resolves bvh' heap cfg m' (Mesh.getPath src dst) r ↔ Resolves bvh heap cfg m (Mesh.getPath src dst) r :=
  future_to bvh bvh' hh (h.renum hc ⟨Iff.rfl, fun id _ => by simp, Iff.rfl⟩ hd) hi hi' src dst s e hs he hsrc hdst hsrc' hdst' r

/-! ### More layers -/

theorem partAs_withLayers (m : Mesh K) (ls : List (Layer K))
    (hv : ∀ l ∈ m.layers, ∀ p ∈ l.polygons, ∀ v ∈ p.vertices, v.toNat < l.vertices.length) :
    PartAs id m.Has m (m.withLayers ls) := by
  refine ⟨fun _ _ h => h, rfl, fun i l p _ hp => ⟨l, p, ⟨?_, hp.2⟩, rfl, List.forall₂_same.2 fun v hvp => ?_⟩⟩
  · exact (List.getElem?_append_left (List.getElem?_eq_some_iff.1 hp.1).1).trans hp.1
  · have hx := List.getElem?_eq_getElem (hv l (List.mem_of_getElem? hp.1) p (List.mem_of_getElem? hp.2) v hvp)
    exact ⟨_, _, hx, hx, rfl, (List.map_id _).symm, rfl⟩

/-- C88, more layers: a path that is found in a mesh is found when more layers are put behind the layers it has, and
the ends are found where they were: layers that are not stitched do not matter, whatever is in them. -/
theorem C88_more_layers (bvh bvh' : Bvh K) {heap : Heap K} (hh : heap.ByCost) (m : Mesh K) (ls : List (Layer K)) (hls : ls ≠ [])
    (hv : ∀ l ∈ m.layers, ∀ p ∈ l.polygons, ∀ v ∈ p.vertices, v.toNat < l.vertices.length) (hl : m.ListsPolygons)
    (blocked : List UInt8) (src dst src' dst' : Coords K) (s e : UInt32) (hs : m.Has s) (he : m.Has e)
    (hsrc : Located m bvh src s) (hdst : Located m bvh dst e) (hsrc' : Located (m.withLayers ls) bvh' src' s)
    (hdst' : Located (m.withLayers ls) bvh' dst' e) (h1 : src'.pos = src.pos) (h2 : dst'.pos = dst.pos) (p : Path K)
    (hp : m.pathOnLayers bvh heap ⟨false⟩ src dst blocked = .ok (some p)) :
    (m.withLayers ls).pathOnLayers bvh' heap ⟨false⟩ src' dst' blocked = .ok (some p) := by
  refine C88_path bvh bvh' hh (partAs_withLayers m ls hv) ⟨fun _ h => h, fun id l p _ => hl id l p⟩
    ⟨Iff.rfl, fun _ _ => Iff.rfl, Iff.rfl⟩ src dst src' dst' s e hs he hsrc hdst hsrc' hdst' h1 h2 ?_ ?_ p hp
  · unfold Mesh.polygonTotal Mesh.withLayers
    rw [List.map_append, List.sum_append]
    exact Nat.le_add_right _ _
  · unfold Mesh.islandsDiffer
    rw [if_neg]
    unfold Mesh.withLayers
    rw [List.length_append]
    obtain ⟨l, p, hpl⟩ := hs
    have h1 := (List.getElem?_eq_some_iff.1 hpl.1).1
    have h2 := List.length_pos_iff.2 hls
    omega

theorem hasPolygon_withLayers {ls : List (Layer K)} {id : UInt32} {l : Layer K} {p : Polygon} (h : m.Has id) :
    HasPolygon (m.withLayers ls) id l p ↔ HasPolygon m id l p := by
  obtain ⟨l0, p0, h0⟩ := h
  unfold HasPolygon
  rw [show (m.withLayers ls).layers = m.layers ++ ls from rfl,
    List.getElem?_append_left (List.getElem?_eq_some_iff.1 h0.1).1]

/-- C88: whatever layers are put behind the layers of a mesh, the paths that are found between points of its polygons
are the same. -/
theorem C88_any_layers (bvh bvh' : Bvh K) {heap : Heap K} (hh : heap.ByCost) (m : Mesh K) (ls ls' : List (Layer K))
    (hv : ∀ l ∈ m.layers, ∀ p ∈ l.polygons, ∀ v ∈ p.vertices, v.toNat < l.vertices.length) (hl : m.ListsPolygons)
    (blocked : List UInt8) (src dst src' dst' : Coords K) (s e : UInt32) (hs : m.Has s) (he : m.Has e)
    (hsrc : Located (m.withLayers ls) bvh src s) (hdst : Located (m.withLayers ls) bvh dst e)
    (hsrc' : Located (m.withLayers ls') bvh' src' s)
    (hdst' : Located (m.withLayers ls') bvh' dst' e) (h1 : src'.pos = src.pos) (h2 : dst'.pos = dst.pos) (p q : Path K)
    (hp : (m.withLayers ls).pathOnLayers bvh heap ⟨false⟩ src dst blocked = .ok (some p))
    (hq : (m.withLayers ls').pathOnLayers bvh' heap ⟨false⟩ src' dst' blocked = .ok (some q)) : q = p := by
  have h : PartAs id m.Has (m.withLayers ls) (m.withLayers ls') := by
    refine ⟨fun _ _ h => h, rfl, fun i l p hi hp => ?_⟩
    exact (partAs_withLayers m ls' hv).polygons i l p hi ((hasPolygon_withLayers hi).1 hp)
  have hc : (m.withLayers ls).Closed m.Has := by
    refine ⟨?_, fun i l p hi hp => hl i l p ((hasPolygon_withLayers hi).1 hp)⟩
    rintro i ⟨l, p, hp⟩
    exact ⟨l, p, (hasPolygon_withLayers ⟨l, p, hp⟩).2 hp⟩
  exact C88_agree bvh bvh' hh h hc ⟨Iff.rfl, fun _ _ => Iff.rfl, Iff.rfl⟩ src dst src' dst' s e hs he hsrc hdst hsrc' hdst' h1 h2
    p q hp hq

/-! ### The budget (C89) -/

/-- Futures whose searches correspond take the same number of polls. -/
theorem resolvesIn_to {N : Vertex K → Vertex K → Prop} (bvh bvh' : Bvh K) {heap : Heap K} (hh : heap.ByCost) {cfg : Cfg}
    (hm : Renum cfg N π m m' [] [] P) (hi : m.NoIslands) (hi' : m'.NoIslands)
    (src dst : Vec2 K) (s e : UInt32) (hs : P s) (he : P e)
    (hsrc : m.getPointLocation bvh (Coords.onMesh src) = .ok s)
    (hdst : m.getPointLocation bvh (Coords.onMesh dst) = .ok e)
    (hsrc' : m'.getPointLocation bvh' (Coords.onMesh src) = .ok (π s))
    (hdst' : m'.getPointLocation bvh' (Coords.onMesh dst) = .ok (π e)) {r : Option (Path K)} {k : Nat}
    {g : FuturePath K} (hr : ResolvesIn bvh heap cfg m k g r) : ∀ {f' : FuturePath K},
    FutureTo cfg N P π m m' src dst g f' → ResolvesIn bvh' heap cfg m' k f' r := by
  have key : ∀ {f f' : FuturePath K}, FutureTo cfg N P π m m' src dst f f' →
      RR (fun r r' => r'.1 = r.1 ∧ FutureTo cfg N P π m m' src dst r.2 r'.2) (f.poll bvh heap cfg m)
        (f'.poll bvh' heap cfg m') := fun hf => poll_to hh hm hi hi' hs he hsrc hdst hsrc' hdst' hf
  induction hr with
  | @ready g g' r hp =>
    intro f' hf'
    have := key hf'
    rw [hp] at this
    cases hq : f'.poll bvh' heap cfg m' with
    | error e => rw [hq] at this; cases this
    | ok x =>
      rw [hq] at this
      obtain ⟨p, g2⟩ := x
      cases this with
      | ok h => obtain ⟨h1, -⟩ := h; simp only at h1; subst h1; exact .ready hq
  | @pending k g g' w r hp _ ih =>
    intro f' hf'
    have := key hf'
    rw [hp] at this
    cases hq : f'.poll bvh' heap cfg m' with
    | error e => rw [hq] at this; cases this
    | ok x =>
      rw [hq] at this
      obtain ⟨p, g2⟩ := x
      cases this with
      | ok h => obtain ⟨h1, h2⟩ := h; simp only at h1; subst h1; exact .pending hq (ih h2)

/-- C89, what holds: a future that resolves after `k` polls (of three steps each, but for the first one) gives the answer
of `path` in every mesh with the same part that has enough polygons for a budget of `3 (k - 1)` steps. -/
theorem C89_budget_partial (bvh bvh' : Bvh K) {heap : Heap K} (hh : heap.ByCost) (m : Mesh K) (ls : List (Layer K))
    (hv : ∀ l ∈ m.layers, ∀ p ∈ l.polygons, ∀ v ∈ p.vertices, v.toNat < l.vertices.length) (hl : m.ListsPolygons)
    (hi : m.NoIslands) (hi' : ∀ l ∈ ls, l.islands = none) (src dst : Vec2 K) (s e : UInt32) (hs : m.Has s) (he : m.Has e)
    (hsrc : m.getPointLocation bvh (Coords.onMesh src) = .ok s)
    (hdst : m.getPointLocation bvh (Coords.onMesh dst) = .ok e)
    (hsrc' : (m.withLayers ls).getPointLocation bvh' (Coords.onMesh src) = .ok s)
    (hdst' : (m.withLayers ls).getPointLocation bvh' (Coords.onMesh dst) = .ok e)
    (has : LookupsAgree (m.withLayers ls) bvh' src) (hae : LookupsAgree (m.withLayers ls) bvh' dst)
    (k : Nat) (r : Option (Path K)) (h : ResolvesIn bvh heap ⟨false⟩ m k (Mesh.getPath src dst) r)
    (hk : 3 * (k - 1) ≤ 10 * (m.withLayers ls).polygonTotal) :
    (m.withLayers ls).path bvh' heap ⟨false⟩ (Coords.onMesh src) (Coords.onMesh dst) = .ok r := by
  have hi2 : (m.withLayers ls).NoIslands := by
    intro l hl
    rcases List.mem_append.1 hl with h | h
    · exact hi l h
    · exact hi' l h
  have hm := (partAs_withLayers m ls hv).renum (cfg := ⟨false⟩) (B := []) (B' := []) ⟨fun _ h => h, fun id l p _ => hl id l p⟩
    ⟨Iff.rfl, fun _ _ => Iff.rfl, Iff.rfl⟩ (fun h => by cases h)
  have hr := resolvesIn_to bvh bvh' hh hm hi hi2 src dst s e hs he hsrc hdst hsrc' hdst' h
    (f' := Mesh.getPath src dst) ⟨rfl, rfl, rfl, rfl, .inl ⟨rfl, rfl⟩⟩
  have hs2 : (m.withLayers ls).Has s := by
    obtain ⟨l, p, hp⟩ := hs
    exact ⟨l, p, (hasPolygon_withLayers ⟨l, p, hp⟩).2 hp⟩
  refine future_agrees rfl ?_ has hae k r hr ?_
  · intro s2 e2 h1 _ _ _ _ _
    rw [hsrc'] at h1
    cases h1
    rw [hi2.differAsync hs2, hi2.differ hs2]
  · unfold Mesh.stepBudget
    unfold Mesh.polygonTotal at hk
    omega

/-! ### Examples -/

/-- Non-vacuity of C88: the query around the corner, when two layers are behind the L-shaped one. -/
theorem C88_example (p : Path Rat)
    (hp : exMesh.path allBvh ratHeap ⟨false⟩ (Coords.onMesh (v2 (3/2) (1/2))) (Coords.onMesh (v2 (3/4) (3/2))) = .ok (some p)) :
    (exMesh.withLayers [exOtherLayer, exLayer]).path allBvh ratHeap ⟨false⟩ (Coords.onMesh (v2 (3/2) (1/2)))
      (Coords.onMesh (v2 (3/4) (3/2))) = .ok (some p) :=
  C88_more_layers allBvh allBvh (heap := ratHeap) maxHeap_byCost exMesh [exOtherLayer, exLayer] (by simp) (by decide +kernel) exMesh_lists []
    _ _ _ _ 1 2 (exMesh_has 1 (by simp)) (exMesh_has 2 (by simp))
    (endpointPolygon_located.1 (by decide +kernel)) (endpointPolygon_located.1 (by decide +kernel))
    (endpointPolygon_located.1 (by decide +kernel)) (endpointPolygon_located.1 (by decide +kernel)) rfl rfl p hp

/-- ... and there is such a path. -/
theorem C88_example_path : ∃ p, exMesh.path allBvh ratHeap ⟨false⟩ (Coords.onMesh (v2 (3/2) (1/2)))
    (Coords.onMesh (v2 (3/4) (3/2))) = .ok (some p) ∧
    (exMesh.withLayers [exOtherLayer, exLayer]).path allBvh ratHeap ⟨false⟩ (Coords.onMesh (v2 (3/2) (1/2)))
      (Coords.onMesh (v2 (3/4) (3/2))) = .ok (some p) := by
  obtain ⟨r, h1, h2⟩ := of_resIs (x := exMesh.path allBvh ratHeap ⟨false⟩ (Coords.onMesh (v2 (3/2) (1/2)))
    (Coords.onMesh (v2 (3/4) (3/2)))) (f := Option.isSome) (by decide +kernel)
  obtain ⟨p, rfl⟩ := Option.isSome_iff_exists.1 h2
  exact ⟨p, h1, C88_example p h1⟩

/-- Non-vacuity of C88_future. -/
theorem C88_future_example (r : Option (Path Rat)) :
    Resolves allBvh ratHeap ⟨false⟩ (exMesh.withLayers [exLayer]) (Mesh.getPath (v2 (3/2) (1/2)) (v2 (3/4) (3/2))) r ↔
      Resolves allBvh ratHeap ⟨false⟩ exMesh (Mesh.getPath (v2 (3/2) (1/2)) (v2 (3/4) (3/2))) r :=
  C88_future allBvh allBvh (heap := ratHeap) maxHeap_byCost ⟨false⟩ (fun h => by cases h)
    (partAs_withLayers exMesh [exLayer] (by decide +kernel)) ⟨fun _ h => h, fun id l p _ => exMesh_lists id l p⟩
    (by unfold Mesh.NoIslands; decide +kernel) (by unfold Mesh.NoIslands; decide +kernel) _ _ 1 2
    (exMesh_has 1 (by simp)) (exMesh_has 2 (by simp))
    (by decide +kernel) (by decide +kernel) (by decide +kernel) (by decide +kernel) r

end Polyanya
