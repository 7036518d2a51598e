import Verif.Spec.Unordered
import Verif.Props.Renumbered
import Verif.Props.Stitching
import Verif.Props.Cleanup
/-
C79: answers do not depend on the order in which the vertices list their polygons.
-/

namespace Polyanya

set_option linter.unusedSectionVars false

variable {K : Type} [Scalar K] {m m' : Mesh K} {π : UInt32 → UInt32} {B B' : List UInt8} {P : UInt32 → Prop}

theorem turns_iff (B : List UInt8) (x : Vertex K) : canTurnAt B x = true ↔ TurnsAt B x := by
  unfold canTurnAt TurnsAt
  rw [Bool.or_eq_true, Bool.and_eq_true, List.any_eq_true]
  simp

theorem otherSideOf_iff (x y : Vertex K) (id o : UInt32) (h : otherSideOf x y id = o) :
    (o ≠ u32Max ∧ o ∈ x.polygons ∧ o ∈ y.polygons ∧ o ≠ id) ∨
      (o = u32Max ∧ ∀ q ∈ x.polygons, q ∈ y.polygons → q = u32Max ∨ q = id) := by
  unfold otherSideOf at h
  cases hf : (List.find? (fun p => decide (p ≠ id))
    (List.filter (fun i => decide (i ≠ u32Max) && y.polygons.contains i) x.polygons)) with
  | none =>
    rw [hf] at h
    refine .inr ⟨h.symm, fun q hx hy => ?_⟩
    rw [List.find?_eq_none] at hf
    by_cases hq : q = u32Max
    · exact .inl hq
    · have := hf q (List.mem_filter.2 ⟨hx, by simp [hq, hy]⟩)
      simpa using Or.inr this
  | some a =>
    rw [hf] at h
    have h1 := List.mem_filter.1 (List.mem_of_find?_eq_some hf)
    have h2 := List.find?_some hf
    simp only [Option.getD_some] at h
    subst h
    simp only [ne_eq, decide_not, Bool.and_eq_true, Bool.not_eq_eq_eq_not, Bool.not_true, decide_eq_false_iff_not,
      List.contains_iff_mem] at h1 h2
    exact .inl ⟨h1.2.1, h1.1, h1.2.2, h2⟩

/-- Corners of C79. -/
def ListsLike (π : UInt32 → UInt32) (B B' : List UInt8) (x x' : Vertex K) : Prop :=
  (∀ q', q' ≠ u32Max → (q' ∈ x'.polygons ↔ ∃ q ∈ x.polygons, π q = q')) ∧ (TurnsAt B' x' ↔ TurnsAt B x)

theorem LikePolygons.renum {cfg : Cfg} (h : LikePolygons π B B' P m m') (hc : m.Closed P) (ho : m.OneAcross P)
    (hd : cfg.detailed = true → (∀ q, layerOf (π q) = layerOf q) ∧ SameScales m m' ∧ m.SmallNumbers ∧ m'.SmallNumbers) :
    Renum cfg (ListsLike π B B') π m m' B B' P where
  injective := h.injective
  outside := h.outside
  has := hc.has
  polygons := by
    intro id l p hP hp
    obtain ⟨l', p', hp', h1, h2⟩ := h.polygons id l p hP hp
    refine ⟨l', p', hp', h1, (forall₂_withBoth h2).imp ?_⟩
    rintro v v' ⟨⟨x, x', a1, a2, a3, a4, a5⟩, hv, hv'⟩
    refine ⟨x, x', a1, a2, a3, ⟨a4, a5⟩, fun hc => ?_⟩
    obtain ⟨-, -, k, k'⟩ := hd hc
    rw [layerOf_lt24 (k l (List.mem_of_getElem? hp.1) p (List.mem_of_getElem? hp.2) v hv),
      layerOf_lt24 (k' l' (List.mem_of_getElem? hp'.1) p' (List.mem_of_getElem? hp'.2) v' hv')]
  layer := fun hc => (hd hc).1
  scale := fun hc => (hd hc).2.1
  lists := hc.lists
  blocked := h.blocked
  turn := by
    intro x x' hx _
    rw [Bool.eq_iff_iff, turns_iff, turns_iff]
    exact hx.2
  other := by
    intro id l p a b x y x' y' hP hp he ha hb hx hy
    have hmax : ∀ q, π q = u32Max ↔ q = u32Max := fun q =>
      ⟨fun hq => h.injective (hq.trans h.outside.symm), fun hq => by rw [hq, h.outside]⟩
    have hmem : ∀ q, q ≠ u32Max → (π q ∈ x'.polygons ↔ q ∈ x.polygons) ∧ (π q ∈ y'.polygons ↔ q ∈ y.polygons) := by
      intro q hq
      have hq' := fun hh => hq ((hmax q).1 hh)
      refine ⟨(hx.1 _ hq').trans ⟨?_, fun hh => ⟨q, hh, rfl⟩⟩, (hy.1 _ hq').trans ⟨?_, fun hh => ⟨q, hh, rfl⟩⟩⟩
      · rintro ⟨q2, h2, e⟩; rw [← h.injective e]; exact h2
      · rintro ⟨q2, h2, e⟩; rw [← h.injective e]; exact h2
    rcases otherSideOf_iff x y id _ rfl with ⟨h1, h2, h3, h4⟩ | ⟨h1, h2⟩ <;>
      rcases otherSideOf_iff x' y' (π id) _ rfl with ⟨k1, k2, k3, k4⟩ | ⟨k1, k2⟩
    · obtain ⟨q, hq, e⟩ := (hx.1 _ k1).1 k2
      rw [← e] at k1 k3 k4 ⊢
      have hq1 : q ≠ u32Max := fun hh => k1 ((hmax q).2 hh)
      rw [ho id l p a b x y hP hp he ha hb q _ hq ((hmem q hq1).2.1 k3) hq1 (fun hh => k4 (by rw [hh])) h2 h3 h1 h4]
    · have := k2 _ ((hmem _ h1).1.2 h2) ((hmem _ h1).2.2 h3)
      rcases this with hh | hh
      · exact absurd ((hmax _).1 hh) h1
      · exact absurd (h.injective hh) h4
    · obtain ⟨q, hq, e⟩ := (hx.1 _ k1).1 k2
      rw [← e] at k1 k3 k4
      have hq1 : q ≠ u32Max := fun hh => k1 ((hmax q).2 hh)
      rcases h2 q hq ((hmem q hq1).2.1 k3) with hh | hh
      · exact absurd hh hq1
      · exact absurd (by rw [hh]) k4
    · rw [h1, k1, h.outside]

/-- C79: two meshes give the same answer (the same path, no path in both, or the same fault in both) when a closed
part of the first one consists of the same polygons as a part of the second one, whose corners list the same polygons
in any order, any number of times. The ends of the query are in corresponding polygons of the part; across an edge
there is at most one polygon. The island tests agree (they do when no islands are baked, or the islands are the same).
With `detailed-layers`, polygons keep their layers, layers their scales, and vertex numbers are below `2^24`. -/
theorem C79_path (bvh bvh' : Bvh K) {heap : Heap K} (hh : heap.ByCost) (cfg : Cfg)
    (hd : cfg.detailed = true → (∀ q, layerOf (π q) = layerOf q) ∧ SameScales m m' ∧ m.SmallNumbers ∧ m'.SmallNumbers)
    (h : LikePolygons π B B' P m m') (hc : m.Closed P) (ho : m.OneAcross P)
    (src dst src' dst' : Coords K) (s e : UInt32) (hi : m'.islandsDiffer (π s) (π e) = m.islandsDiffer s e)
    (hs : P s) (he : P e) (hsrc : Located m bvh src s) (hdst : Located m bvh dst e)
    (hsrc' : Located m' bvh' src' (π s)) (hdst' : Located m' bvh' dst' (π e))
    (h1 : src'.pos = src.pos) (h2 : dst'.pos = dst.pos) :
    m'.pathOnLayers bvh' heap cfg src' dst' B' = m.pathOnLayers bvh heap cfg src dst B := by
  have hm := h.renum (cfg := cfg) hc ho hd
  unfold Mesh.pathOnLayers
  rw [endpointPolygon_located.2 hsrc, endpointPolygon_located.2 hsrc', res_bind_ok, res_bind_ok]
  simp only
  rw [endpointPolygon_located.2 hdst, endpointPolygon_located.2 hdst', res_bind_ok, res_bind_ok]
  simp only
  rw [h1, h2]
  exact pathBetween_to hh hm (by unfold Mesh.stepBudget; rw [h.count]) _ _ hs he hi

/-- C79: futures resolve to the same answers. -/
theorem C79_future (bvh bvh' : Bvh K) {heap : Heap K} (hh : heap.ByCost) (cfg : Cfg)
    (hd : cfg.detailed = true → (∀ q, layerOf (π q) = layerOf q) ∧ SameScales m m' ∧ m.SmallNumbers ∧ m'.SmallNumbers)
    (h : LikePolygons π [] [] P m m') (hc : m.Closed P) (ho : m.OneAcross P) (hi : m.NoIslands) (hi' : m'.NoIslands)
    (src dst : Vec2 K) (s e : UInt32) (hs : P s) (he : P e)
    (hsrc : m.getPointLocation bvh (Coords.onMesh src) = .ok s)
    (hdst : m.getPointLocation bvh (Coords.onMesh dst) = .ok e)
    (hsrc' : m'.getPointLocation bvh' (Coords.onMesh src) = .ok (π s))
    (hdst' : m'.getPointLocation bvh' (Coords.onMesh dst) = .ok (π e)) (r : Option (Path K)) :
    Resolves bvh' heap cfg m' (Mesh.getPath src dst) r ↔ Resolves bvh heap cfg m (Mesh.getPath src dst) r :=
  future_to bvh bvh' hh (h.renum hc ho hd) hi hi' src dst s e hs he hsrc hdst hsrc' hdst' r

/-! ### Meshes with the same layers -/

theorem SameButNeighbours.coordsAt {l l' : Layer K} (h : SameButNeighbours l l') {i : Nat} {x x' : Vertex K}
    (hx : l.vertices[i]? = some x) (hx' : l'.vertices[i]? = some x') : x'.coords = x.coords := by
  have := congrArg (·[i]?) h.coords
  simp only [List.getElem?_map, hx, hx', Option.map_some] at this
  exact Option.some.inj this

theorem SameButNeighbours.vertexThere {l l' : Layer K} (h : SameButNeighbours l l') {i : Nat} {x : Vertex K}
    (hx : l.vertices[i]? = some x) : ∃ x', l'.vertices[i]? = some x' :=
  ⟨_, List.getElem?_eq_getElem (by rw [h.length]; exact lt_of_getElem? hx)⟩

theorem SameShape.loc (h : SameShape m m')
    (hv : ∀ l ∈ m.layers, ∀ p ∈ l.polygons, ∀ v ∈ p.vertices, v.toNat < l.vertices.length) : LocMesh m m' := by
  refine ⟨?_, by rw [h.1], by rw [h.1]⟩
  have key : ∀ ls ls' : List (Layer K), (∀ l ∈ ls, l ∈ m.layers) → List.Forall₂ SameButNeighbours ls ls' →
      List.Forall₂ LocLayer ls ls' := by
    intro ls ls' hm hs
    refine (forall₂_withMem hs hm).imp ?_
    rintro l l' ⟨hll, hlm⟩
    refine ⟨?_, hll.offset, hll.baked⟩
    rw [hll.polygons]
    refine List.forall₂_same.2 fun p hp => List.forall₂_same.2 fun v hvp => ?_
    have hx := List.getElem?_eq_getElem (hv l hlm p hp v hvp)
    obtain ⟨x', hx'⟩ := hll.vertexThere hx
    exact ⟨_, x', hx, hx', hll.coordsAt hx hx'⟩
  exact key _ _ (fun _ h => h) h.2

/-- C79 for meshes with the same layers: whatever the orders in which the vertices of a closed part list the same
polygons, a query between points of that part has the same answer. -/
theorem C79_same_layers (bvh : Bvh K) {heap : Heap K} (hh : heap.ByCost) (cfg : Cfg) (hd : cfg.detailed = true → m.SmallNumbers)
    (h : SameShape m m') (hv : ∀ l ∈ m.layers, ∀ p ∈ l.polygons, ∀ v ∈ p.vertices, v.toNat < l.vertices.length)
    (hc : m.Closed P) (ho : m.OneAcross P)
    (hn : ∀ id l p v q, P id → HasPolygon m id l p → v ∈ p.vertices → q ≠ u32Max →
      (Lists m' (idLayer id) v.toNat q ↔ Lists m (idLayer id) v.toNat q))
    (ht : ∀ id l p v l' x x', P id → HasPolygon m id l p → v ∈ p.vertices → l.vertices[v.toNat]? = some x →
      m'.layers[idLayer id]? = some l' → l'.vertices[v.toNat]? = some x' → (TurnsAt B x' ↔ TurnsAt B x))
    (src dst : Coords K) (s e : UInt32) (hs : P s) (he : P e) (hsrc : Located m bvh src s)
    (hdst : Located m bvh dst e) :
    m'.pathOnLayers bvh heap cfg src dst B = m.pathOnLayers bvh heap cfg src dst B := by
  have hloc := h.loc hv
  have hlike : LikePolygons id B B P m m' := by
    refine ⟨fun _ _ h => h, rfl, ?_, ?_, fun _ _ => Iff.rfl⟩
    · have : List.Forall₂ (fun l l' : Layer K => l'.polygons.length = l.polygons.length) m.layers m'.layers :=
        h.2.imp fun _ _ hh => by rw [hh.polygons]
      revert this
      generalize m.layers = ls
      generalize m'.layers = ls'
      intro this
      induction this with
      | nil => rfl
      | cons h1 _ ih => rw [List.map_cons, List.map_cons, List.sum_cons, List.sum_cons, h1, ih]
    · intro pid l p hP hp
      obtain ⟨l2, hl2, hs2⟩ := h.symm.layer hp.1
      have hll : SameButNeighbours l l2 := hs2.symm
      refine ⟨l2, p, ⟨hl2, by rw [hll.polygons]; exact hp.2⟩, rfl, List.forall₂_same.2 fun v hvp => ?_⟩
      have hx := List.getElem?_eq_getElem
        (hv l (List.mem_of_getElem? hp.1) p (List.mem_of_getElem? hp.2) v hvp)
      obtain ⟨x', hx'⟩ := hll.vertexThere hx
      refine ⟨_, x', hx, hx', by rw [hll.coordsAt hx hx', hll.offset], ?_, ht pid l p v l2 _ _ hP hp hvp hx hl2 hx'⟩
      intro q hq
      have h1 : q ∈ x'.polygons ↔ Lists m' (idLayer pid) v.toNat q := by
        constructor
        · intro hm; exact ⟨l2, x', hl2, hx', hm⟩
        · rintro ⟨l3, x3, a, b, c⟩
          rw [hl2] at a; cases a
          rw [hx'] at b; cases b
          exact c
      rw [h1, hn pid l p v q hP hp hvp hq]
      constructor
      · rintro ⟨l3, x3, a, b, c⟩
        rw [hp.1] at a; cases a
        rw [hx] at b; cases b
        exact ⟨q, c, rfl⟩
      · rintro ⟨q2, c, rfl⟩
        exact ⟨l, _, hp.1, hx, c⟩
  have hisl : m'.islandsDiffer s e = m.islandsDiffer s e := by
    unfold Mesh.islandsDiffer
    rw [← h.2.length_eq]
    split
    · refine RR.eq ((RR.idx h.2 _).bind fun l l' hl => ?_)
      rw [hl.islands]
      exact RR.refl _
    · rfl
  have hd' : cfg.detailed = true → (∀ q, layerOf (id q) = layerOf q) ∧ SameScales m m' ∧ m.SmallNumbers ∧
      m'.SmallNumbers := by
    intro hc
    refine ⟨fun _ => rfl, h.2.imp fun _ _ h => h.scale, hd hc, ?_⟩
    intro l' hl' p hp v hv
    obtain ⟨i, hi2⟩ := List.mem_iff_getElem?.1 hl'
    obtain ⟨l, hl, hll⟩ := h.layer hi2
    rw [hll.polygons] at hp
    exact hd hc l (List.mem_of_getElem? hl) p hp v hv
  refine C79_path bvh bvh hh cfg hd' hlike hc ho src dst src dst s e hisl hs he hsrc hdst ?_ ?_ rfl rfl
  · rw [id_eq, ← endpointPolygon_located, endpointPolygon_loc bvh hloc, endpointPolygon_located]; exact hsrc
  · rw [id_eq, ← endpointPolygon_located, endpointPolygon_loc bvh hloc, endpointPolygon_located]; exact hdst

/-- The polygons of layer 0. -/
def Mesh.InFirst (m : Mesh K) (id : UInt32) : Prop := m.Has id ∧ idLayer id = 0

theorem closed_first (hm : m.Unstitched) : m.Closed m.InFirst := by
  refine ⟨fun _ h => h.1, ?_⟩
  rintro id l p ⟨-, h0⟩ hp v hv x hx q hq
  by_cases hq0 : q = u32Max
  · exact .inl hq0
  have hl := List.mem_of_getElem? hp.1
  have h1 := hm.refs l hl x (List.mem_of_getElem? hx) q hq hq0
  have h2 : l.polygons.length ≤ 2 ^ 24 - 1 := hm.sized l hl
  have hid : idLayer q = 0 := by unfold idLayer; omega
  have hip : idPolygon q = q.toNat := by unfold idPolygon; omega
  refine .inr ⟨⟨l, _, ?_, List.getElem?_eq_getElem (by rw [hip]; exact h1)⟩, hid⟩
  rw [hid, ← h0]
  exact hp.1

/-- C79, stitching and removing the stitches again: queries between points of layer 0 have the answers they had
before, if the corner flags of layer 0 are what they were before (`C47_false` is a case in which they are not:
`remove_stitches` does not compute them again). -/
theorem C79_round_trip (bvh : Bvh K) {heap : Heap K} (hh : heap.ByCost) (cfg : Cfg) (hd : cfg.detailed = true → m.SmallNumbers)
    (hm : m.Unstitched) (s : StitchVertices) (hs : StitchesExist m s) (oneWay : Bool) (sorter : Sorter)
    (hsort : sorter.Ok) (ho : m.OneAcross m.InFirst) :
    ∃ m', m.stitchAtVertices sorter s oneWay = .ok m' ∧
      ((∀ (l l' : Layer K) (i : Nat) (x x' : Vertex K), m.layers[0]? = some l → m'.layers[0]? = some l' → l.vertices[i]? = some x →
          l'.vertices[i]? = some x' → x'.isCorner = x.isCorner) →
        ∀ src dst a b, m.InFirst a → m.InFirst b → Located m bvh src a → Located m bvh dst b →
          m'.removeStitches.path bvh heap cfg src dst = m.path bvh heap cfg src dst) := by
  obtain ⟨m', h1, h2, h3⟩ := C19_round_trip m hm s hs oneWay sorter hsort
  refine ⟨m', h1, fun hflag src dst a b ha hb hsrc hdst => ?_⟩
  refine C79_same_layers bvh hh cfg hd h2 hm.vertices (closed_first hm) ho
    (fun id l p v q _ _ _ hq => h3 _ _ q hq) ?_ src dst a b ha hb hsrc hdst
  rintro id l p v l' x x' ⟨-, h0⟩ hp hv hx hl' hx'
  obtain ⟨lm, hlm, hsm⟩ := (removeStitches_shape m').layer hl'
  obtain ⟨xm, hxm⟩ := hsm.symm.vertexThere hx'
  have e1 : x'.isCorner = xm.isCorner := by
    unfold Mesh.removeStitches at hl'
    simp only [List.getElem?_mapIdx, hlm, Option.map_some, Option.some.injEq] at hl'
    subst hl'
    unfold Layer.mapNeighbours at hx'
    simp only [List.getElem?_map, hxm, Option.map_some, Option.some.injEq] at hx'
    subst hx'
    rfl
  have e2 := hflag l lm v.toNat x xm (h0 ▸ hp.1) (h0 ▸ hlm) hx hxm
  unfold TurnsAt
  rw [e1, e2]
  simp

theorem closed_all (hm : m.RefsInRange) : m.Closed m.Has := by
  refine ⟨fun _ h => h, ?_⟩
  intro id l p _ hp v hv x hx q hq
  by_cases hq0 : q = u32Max
  · exact .inl hq0
  · exact .inr (hm.refs l (List.mem_of_getElem? hp.1) x (List.mem_of_getElem? hx) q hq hq0)

/-- C79, `reorder_neighbors`: if it leaves the corner flags as they are, all queries have the answers they had before,
whatever the orders in which the neighbours were listed, and whatever gaps were listed. -/
theorem C79_reorder (bvh : Bvh K) {heap : Heap K} (hh : heap.ByCost) (cfg : Cfg) (hd : cfg.detailed = true → m.SmallNumbers)
    (hm : m.RefsInRange) (sorter : Sorter) (hsort : sorter.Ok) (ho : m.OneAcross m.Has) :
    ∃ m', m.reorderNeighbors sorter = .ok m' ∧
      ((∀ (k : Nat) (l l' : Layer K) (i : Nat) (x x' : Vertex K), m.layers[k]? = some l → m'.layers[k]? = some l' →
          l.vertices[i]? = some x → l'.vertices[i]? = some x' → x'.isCorner = x.isCorner) →
        ∀ src dst a b, m.Has a → m.Has b → Located m bvh src a → Located m bvh dst b →
          m'.path bvh heap cfg src dst = m.path bvh heap cfg src dst) := by
  obtain ⟨m', h1, h2, h3⟩ := C23_reorder m hm sorter hsort
  have hsh : SameShape m m' := ⟨h2, h3.imp fun _ _ h => h.1⟩
  refine ⟨m', h1, fun hflag src dst a b ha hb hsrc hdst => ?_⟩
  refine C79_same_layers bvh hh cfg hd hsh hm.vertices (closed_all hm) ho ?_ ?_ src dst a b ha hb hsrc hdst
  · intro id l p v q _ hp hv hq
    have hk := lt_of_getElem? hp.1
    obtain ⟨l', hl', -⟩ := hsh.symm.layer hp.1
    obtain ⟨hk', rfl⟩ := List.getElem?_eq_some_iff.1 hl'
    obtain ⟨hk2, rfl⟩ := List.getElem?_eq_some_iff.1 hp.1
    have hll := (List.forall₂_iff_get.1 h3).2 _ hk hk'
    have hvl := hm.vertices _ (List.getElem_mem hk) p (List.mem_of_getElem? hp.2) v hv
    have hvl' : v.toNat < (m'.layers[idLayer id]).vertices.length := by
      have := SameButNeighbours.length hll.1
      simp only [List.get_eq_getElem] at this
      rw [this]; exact hvl
    have hvv := ((List.forall₂_iff_get.1 hll.2).2 v.toNat hvl hvl').1.same q hq
    have hL : ∀ (n : Mesh K) (h : idLayer id < n.layers.length) (h' : v.toNat < (n.layers[idLayer id]).vertices.length),
        Lists n (idLayer id) v.toNat q ↔ q ∈ ((n.layers[idLayer id]).vertices[v.toNat]).polygons := by
      intro n h h'
      constructor
      · rintro ⟨l3, x3, a, b, c⟩
        rw [List.getElem?_eq_getElem h] at a; cases a
        rw [List.getElem?_eq_getElem h'] at b; cases b
        exact c
      · intro c
        exact ⟨_, _, List.getElem?_eq_getElem h, List.getElem?_eq_getElem h', c⟩
    rw [hL m' hk' hvl', hL m hk hvl]
    exact hvv
  · intro id l p v l' x x' _ hp _ hx hl' hx'
    have := hflag _ l l' _ x x' hp.1 hl' hx hx'
    unfold TurnsAt
    rw [this]
    simp

end Polyanya
