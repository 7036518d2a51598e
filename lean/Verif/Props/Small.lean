import Verif.Proofs.Found
import Verif.Proofs.Safe
import Verif.Spec.Laws
import Verif.Spec.RatScalar
import Mathlib.Algebra.Order.Ring.Unbundled.Rat
/-
Properties C18 (packed ids), C36 (wake-ups), C37 (best-first order), C40 (search settings), C45 (baking
does not alter the geometry).
-/

namespace Polyanya

variable {K : Type} [Scalar K]

/-! ### C18 -/

/-- C18: packing and unpacking is lossless for every layer and every polygon below `2^24`. -/
theorem C18_roundtrip (layer : UInt8) (polygon : UInt32) (h : polygon.toNat < 2 ^ 24) :
    layerOf (packId layer polygon) = layer ∧ polygonOf (packId layer polygon) = polygon := by
  constructor
  · apply UInt8.toNat_inj.1
    rw [layerOf_toNat, idLayer_packId _ _ h]
  · apply UInt32.toNat_inj.1
    rw [polygonOf_toNat, idPolygon_packId _ _ h]

/-- C18: every id is the packing of its two parts. -/
theorem C18_surjective (id : UInt32) :
    (polygonOf id).toNat < 2 ^ 24 ∧ packId (layerOf id) (polygonOf id) = id := by
  have h : (polygonOf id).toNat < 2 ^ 24 := by
    rw [polygonOf_toNat]; exact Nat.mod_lt _ (by decide)
  refine ⟨h, UInt32.toNat_inj.1 ?_⟩
  rw [packId_toNat _ _ h, layerOf_toNat, polygonOf_toNat]
  unfold idLayer idPolygon
  omega

/-- C18: distinct (layer, polygon) pairs have distinct ids. -/
theorem C18_injective (l l' : UInt8) (p p' : UInt32) (hp : p.toNat < 2 ^ 24) (hp' : p'.toNat < 2 ^ 24)
    (h : packId l p = packId l' p') : l = l' ∧ p = p' := by
  have h1 := C18_roundtrip l p hp
  have h2 := C18_roundtrip l' p' hp'
  rw [h] at h1
  exact ⟨h1.1.symm.trans h2.1, h1.2.symm.trans h2.2⟩

/-- C18: a polygon of a layer accepted by `Layer::new` never has the id `u32::MAX`, on any layer. -/
theorem C18_not_max (vertices : List (Vertex K)) (polygons : List Polygon) (l : Layer K)
    (h : Layer.new vertices polygons = .ok (.ok l)) (layer : UInt8) (i : Nat) (hi : i < l.polygons.length) :
    packId layer (UInt32.ofNat i) ≠ u32Max := by
  have hlen : l.polygons.length ≤ 2 ^ 24 - 1 := by
    unfold Layer.new at h
    split at h
    · simp at h
    · split at h
      · simp at h
      · rename_i hle
        simp only [bind_eq_ok, Except.ok.injEq] at h
        obtain ⟨l', hb, rfl⟩ := h
        unfold Layer.bake Layer.bakeIslands at hb
        simp only [bind_eq_ok, Except.ok.injEq] at hb
        obtain ⟨isl, -, rfl⟩ := hb
        simpa [Layer.bakePolygonFinder, Layer.mk'] using hle
  exact packId_ne_max _ _ (by rw [UInt32.toNat_ofNat_of_lt' (show i < 4294967296 by omega)]; omega)

/-- The bound is sharp: with one more polygon, layer 255 would produce the marker. -/
example : packId 255 (UInt32.ofNat (2 ^ 24 - 1)) = u32Max := by decide

example : layerOf (packId 7 123456) = 7 ∧ polygonOf (packId 7 123456) = 123456 :=
  C18_roundtrip 7 123456 (by decide)

/-! ### C40 -/

/-- The calls that change search settings. -/
inductive SettingCall (K : Type) where
  | delta (d : K)
  | steps (n : Nat)

/-- Performing a call. -/
def SettingCall.run (m : Mesh K) : SettingCall K → Res (Mesh K)
  | .delta d => m.setSearchDelta d
  | .steps n => m.setSearchSteps n

/-- The last delta set by a sequence of calls, if any. -/
def lastDelta : List (SettingCall K) → Option K
  | [] => none
  | .delta d :: cs => (lastDelta cs).or (some d)
  | .steps _ :: cs => lastDelta cs

/-- The last number of steps set by a sequence of calls, if any. -/
def lastSteps : List (SettingCall K) → Option Nat
  | [] => none
  | .steps n :: cs => (lastSteps cs).or (some n)
  | .delta _ :: cs => lastSteps cs

/-- C40: a call panics exactly when its argument is invalid (a delta for which `delta >= 0` does not hold:
negative or NaN; or zero steps). -/
theorem C40_rejects (m : Mesh K) :
    (∀ d : K, m.setSearchDelta d = .error .panic ↔ (Scalar.lit 0 0 <=. d) = false) ∧
    (∀ n, m.setSearchSteps n = .error .panic ↔ n = 0) := by
  constructor
  · intro d
    unfold Mesh.setSearchDelta
    split <;> simp_all
  · intro n
    unfold Mesh.setSearchSteps
    split <;> simp_all

/-- C40: after any sequence of accepted calls, the getters return the last values set (or the former ones),
and the layers are unchanged. -/
theorem C40_last_value (m m' : Mesh K) (calls : List (SettingCall K))
    (h : calls.foldlM SettingCall.run m = .ok m') :
    m'.searchDelta = (lastDelta calls).getD m.searchDelta ∧
    m'.searchSteps = (lastSteps calls).getD m.searchSteps ∧ m'.layers = m.layers := by
  induction calls generalizing m with
  | nil => simp only [List.foldlM_nil, res_pure, Except.ok.injEq] at h; subst h; exact ⟨rfl, rfl, rfl⟩
  | cons c cs ih =>
    rw [List.foldlM_cons, bind_eq_ok] at h
    obtain ⟨m1, h1, h2⟩ := h
    obtain ⟨i1, i2, i3⟩ := ih m1 h2
    rw [i1, i2, i3]
    cases c with
    | delta d =>
      simp only [SettingCall.run, Mesh.setSearchDelta] at h1
      split at h1
      · simp only [Except.ok.injEq] at h1; subst h1
        refine ⟨?_, rfl, rfl⟩
        simp only [lastDelta]; cases lastDelta cs <;> rfl
      · simp at h1
    | steps n =>
      simp only [SettingCall.run, Mesh.setSearchSteps] at h1
      split at h1
      · simp only [Except.ok.injEq] at h1; subst h1
        refine ⟨rfl, ?_, rfl⟩
        simp only [lastSteps]; cases lastSteps cs <;> rfl
      · simp at h1

/-- Non-vacuity: an accepted sequence of calls. -/
example : ∃ m', [SettingCall.delta (1/2 : Rat), .steps 7, .delta 3].foldlM SettingCall.run exMesh = .ok m'
    ∧ m'.searchDelta = 3 ∧ m'.searchSteps = 7 := by
  obtain ⟨m', h1, h2⟩ := of_resIs
    (x := [SettingCall.delta (1/2 : Rat), .steps 7, .delta 3].foldlM SettingCall.run exMesh)
    (f := fun m' => decide (m'.searchDelta = 3 ∧ m'.searchSteps = 7)) (by decide +kernel)
  exact ⟨m', h1, by simpa using h2⟩

/-! ### C45 -/

/-- Everything of a layer except the precomputed data. -/
def Layer.geometry (l : Layer K) : List (Vertex K) × List Polygon × Vec2 K × Vec2 K :=
  (l.vertices, l.polygons, l.offset, l.scale)

theorem bakeIslands_geometry {l l' : Layer K} (h : l.bakeIslands = .ok l') : l'.geometry = l.geometry := by
  unfold Layer.bakeIslands at h
  simp only [bind_eq_ok, Except.ok.injEq] at h
  obtain ⟨_, -, rfl⟩ := h
  rfl

/-- C45: baking keeps the geometry of every layer and the settings, and stores both kinds of data. -/
theorem C45_bake (m m' : Mesh K) (h : m.bake = .ok m') :
    m'.layers.map Layer.geometry = m.layers.map Layer.geometry ∧ m'.searchDelta = m.searchDelta ∧
    m'.searchSteps = m.searchSteps ∧
    ∀ l ∈ m'.layers, l.baked.isSome = true ∧ l.islands.isSome = true := by
  unfold Mesh.bake at h
  simp only [bind_eq_ok, Except.ok.injEq] at h
  obtain ⟨ls, hls, rfl⟩ := h
  rw [mapM_ok_iff] at hls
  obtain ⟨L, d, st⟩ := m
  simp only at hls
  refine ⟨?_, rfl, rfl, ?_⟩
  · simp only
    induction hls with
    | nil => rfl
    | cons h1 _ ih =>
      simp only [List.map_cons, List.cons.injEq]
      exact ⟨(bakeIslands_geometry h1).trans rfl, ih⟩
  · simp only
    induction hls with
    | nil => simp
    | cons h1 _ ih =>
      intro l hl
      rcases List.mem_cons.1 hl with rfl | hl
      · unfold Layer.bake Layer.bakeIslands at h1
        simp only [bind_eq_ok, Except.ok.injEq] at h1
        obtain ⟨isl, -, rfl⟩ := h1
        exact ⟨rfl, rfl⟩
      · exact ih l hl

/-- C45: unbaking keeps the geometry and the settings and removes the precomputed data. -/
theorem C45_unbake (m : Mesh K) :
    m.unbake.layers.map Layer.geometry = m.layers.map Layer.geometry ∧
    m.unbake.searchDelta = m.searchDelta ∧ m.unbake.searchSteps = m.searchSteps ∧
    ∀ l ∈ m.unbake.layers, l.baked = none ∧ l.islands = none := by
  refine ⟨?_, rfl, rfl, ?_⟩
  · simp only [Mesh.unbake, List.map_map]
    rfl
  · intro l hl
    simp only [Mesh.unbake, List.mem_map] at hl
    obtain ⟨l', -, rfl⟩ := hl
    exact ⟨rfl, rfl⟩

theorem flood_congr {l l' : Layer K} (hg : l.geometry = l'.geometry) (root : Nat) :
    ∀ fuel st isl, l.flood root fuel st isl = l'.flood root fuel st isl := by
  obtain ⟨v, p, o, s, b, i⟩ := l
  obtain ⟨v', p', o', s', b', i'⟩ := l'
  simp only [Layer.geometry, Prod.mk.injEq] at hg
  obtain ⟨rfl, rfl, rfl, rfl⟩ := hg
  intro fuel
  induction fuel with
  | zero => intro _ _; rfl
  | succ fuel ih =>
    intro st isl
    cases st with
    | nil => rfl
    | cons a st => simp only [Layer.flood, ih]; rfl

theorem floodAll_congr {l l' : Layer K} (hg : l.geometry = l'.geometry) :
    ∀ fuel isl, l.floodAll fuel isl = l'.floodAll fuel isl := by
  have hfl := flood_congr hg
  obtain ⟨v, p, o, s, b, i⟩ := l
  obtain ⟨v', p', o', s', b', i'⟩ := l'
  simp only [Layer.geometry, Prod.mk.injEq] at hg
  obtain ⟨rfl, rfl, rfl, rfl⟩ := hg
  intro fuel
  induction fuel with
  | zero => intro _; rfl
  | succ fuel ih =>
    intro isl
    simp only [Layer.floodAll, ih, hfl]
    rfl

/-- Baking depends only on the geometry. -/
theorem bake_congr {l l' : Layer K} (hg : l.geometry = l'.geometry) : l.bake = l'.bake := by
  unfold Layer.bake Layer.bakeIslands
  rw [floodAll_congr (l := l.bakePolygonFinder) (l' := l'.bakePolygonFinder) hg]
  obtain ⟨v, p, o, s, b, i⟩ := l
  obtain ⟨v', p', o', s', b', i'⟩ := l'
  simp only [Layer.geometry, Prod.mk.injEq] at hg
  obtain ⟨rfl, rfl, rfl, rfl⟩ := hg
  rfl

/-- C45: the baked data are a function of the geometry: baking after unbaking, or baking again, gives the
same mesh as baking once. -/
theorem C45_rebake (m m' : Mesh K) (h : m.bake = .ok m') :
    m.unbake.bake = .ok m' ∧ m'.bake = .ok m' ∧ m'.unbake.bake = .ok m' := by
  unfold Mesh.bake at h
  simp only [bind_eq_ok, Except.ok.injEq] at h
  obtain ⟨ls, hls, rfl⟩ := h
  rw [mapM_ok_iff] at hls
  have h1 : (m.layers.map Layer.unbake).mapM Layer.bake = .ok ls := by
    rw [mapM_ok_iff, List.forall₂_map_left_iff]
    exact hls.imp (fun a b hab => (bake_congr (l := a.unbake) (l' := a) rfl).trans hab)
  have hg : ∀ a b : Layer K, a.bake = .ok b → b.bake = .ok b := fun a b hab =>
    (bake_congr (bakeIslands_geometry hab)).symm ▸ hab
  have h2 : ls.mapM Layer.bake = .ok ls := by
    rw [mapM_ok_iff]
    clear h1
    obtain ⟨L, d, st⟩ := m
    simp only at hls
    induction hls with
    | nil => exact .nil
    | cons hab _ ih => exact .cons (hg _ _ hab) ih
  have h3 : (ls.map Layer.unbake).mapM Layer.bake = .ok ls := by
    rw [mapM_ok_iff, List.forall₂_map_left_iff]
    exact (mapM_ok_iff.1 h2).imp (fun a b hab => (bake_congr (l := a.unbake) (l' := a) rfl).trans hab)
  refine ⟨?_, ?_, ?_⟩
  · unfold Mesh.bake Mesh.unbake; simp only [h1]; rfl
  · unfold Mesh.bake; simp only [h2]; rfl
  · unfold Mesh.bake Mesh.unbake; simp only [h3]; rfl

/-- Non-vacuity: the example mesh can be baked. -/
example : ∃ m', exMesh.bake = .ok m' := by
  obtain ⟨m', h1, -⟩ := of_resIs (x := exMesh.bake) (f := fun _ => true) (by decide +kernel)
  exact ⟨m', h1⟩

/-! ### C36 -/

/-- C36: every pending poll has woken its waker, in every state of the future. -/
theorem C36_pending_wakes (bvh : Bvh K) (heap : Heap K) (cfg : Cfg) (m : Mesh K) (f f' : FuturePath K)
    (woken : Bool) (h : f.poll bvh heap cfg m = .ok (.pending woken, f')) : woken = true := by
  unfold FuturePath.poll at h
  split at h
  · simp only [bind_eq_ok] at h
    obtain ⟨⟨r, inst⟩, -, h⟩ := h
    split at h
    · simp at h
    · simp only [Except.ok.injEq, Prod.mk.injEq, Poll.pending.injEq] at h
      exact h.1.symm
  · simp only [bind_eq_ok] at h
    obtain ⟨s, -, h⟩ := h
    split at h
    · simp at h
    · simp only [bind_eq_ok] at h
      obtain ⟨e, -, h⟩ := h
      split at h
      · simp at h
      · simp only [bind_eq_ok] at h
        obtain ⟨b, -, h⟩ := h
        split at h
        · simp at h
        · split at h
          · simp at h
          · simp only [bind_eq_ok, Except.ok.injEq, Prod.mk.injEq, Poll.pending.injEq] at h
            obtain ⟨_, -, h, -⟩ := h
            exact h.symm

/-- C36: an executor that polls whenever woken never stalls: on a well-formed mesh, at every point of the
execution of the future, either it is ready, or it was woken and can be polled again. -/
theorem C36_no_stall [NanLaws K] (bvh : Bvh K) (heap : Heap K) (cfg : Cfg) (m : Mesh K) (src dst : Vec2 K)
    (hb : bvh.InRange) (hm : m.WF cfg) (hn : m.NoNan) (f : FuturePath K)
    (hf : Polls bvh heap cfg m (Mesh.getPath src dst) f) :
    (∃ r f', f.poll bvh heap cfg m = .ok (.ready r, f')) ∨
    (∃ f', f.poll bvh heap cfg m = .ok (.pending true, f') ∧
      Polls bvh heap cfg m (Mesh.getPath src dst) f') := by
  have hok : FutOk bvh cfg m src dst f := by
    induction hf with
    | refl => exact ⟨rfl, rfl, by intro inst hinst; simp [Mesh.getPath] at hinst⟩
    | step _ hp ih => exact (poll_ok ih hp).1
  obtain ⟨⟨r, f'⟩, h⟩ := (safe_poll (heap := heap) hb hm hn hok).ex
  cases r with
  | ready r => exact .inl ⟨r, f', h⟩
  | pending w =>
    obtain rfl := C36_pending_wakes _ _ _ _ _ _ _ h
    exact .inr ⟨f', h, .step hf h⟩

/-- Non-vacuity: the future of the example query is pending after the first poll. -/
example : ∃ f', (Mesh.getPath (v2 (3/2) (1/2)) (v2 (3/4) (3/2))).poll allBvh ratHeap ⟨false⟩ exMesh
    = .ok (.pending true, f') := by
  obtain ⟨⟨r, f'⟩, h1, h2⟩ := of_resIs
    (x := (Mesh.getPath (v2 (3/2) (1/2)) (v2 (3/4) (3/2))).poll allBvh ratHeap ⟨false⟩ exMesh)
    (f := fun r => match r.1 with | .pending _ => true | .ready _ => false) (by decide +kernel)
  cases r with
  | ready r => simp at h2
  | pending w =>
    obtain rfl := C36_pending_wakes _ _ _ _ _ _ _ h1
    exact ⟨f', h1⟩

/-! ### C37 -/

/-- The estimated total length of a node. -/
def SearchNode.estimate (n : SearchNode K) : K := n.distanceStartToRoot +. n.heuristic

/-- C37: the order of the queue puts the smaller estimate first (a greater node is popped earlier) and,
among equal estimates, the larger known length. -/
theorem C37_order [TotalCmpLaws K] (a b : SearchNode K) :
    a.cmp b = .gt ↔ Scalar.totalCmp a.estimate b.estimate = .lt ∨
      (Scalar.totalCmp a.estimate b.estimate = .eq ∧
        Scalar.totalCmp a.distanceStartToRoot b.distanceStartToRoot = .gt) := by
  unfold SearchNode.cmp SearchNode.estimate
  split <;> simp_all

/-- C37: it is a total preorder: reflexive, antisymmetric in the sense of `Ord`, transitive. -/
theorem C37_total_preorder [TotalCmpLaws K] :
    (∀ a : SearchNode K, a.cmp a = .eq) ∧ (∀ a b : SearchNode K, b.cmp a = (a.cmp b).swap) ∧
    (∀ a b c : SearchNode K, a.cmp b ≠ .gt → b.cmp c ≠ .gt → a.cmp c ≠ .gt) := by
  have hs : ∀ a b : SearchNode K, b.cmp a = (a.cmp b).swap := by
    intro a b
    unfold SearchNode.cmp
    rw [TotalCmpLaws.swap (a.distanceStartToRoot +. a.heuristic),
      TotalCmpLaws.swap a.distanceStartToRoot b.distanceStartToRoot]
    cases Scalar.totalCmp (a.distanceStartToRoot +. a.heuristic)
      (b.distanceStartToRoot +. b.heuristic) <;> rfl
  refine ⟨fun a => ?_, hs, ?_⟩
  · unfold SearchNode.cmp; rw [TotalCmpLaws.refl]; exact TotalCmpLaws.refl _
  · intro a b c hab hbc hac
    rw [Ne, C37_order] at hab hbc
    rw [C37_order] at hac
    -- write x, y, z for the estimates
    have key : ∀ x y : K, Scalar.totalCmp x y ≠ .lt → Scalar.totalCmp y x ≠ .gt := by
      intro x y h; rw [TotalCmpLaws.swap x y]; cases h' : Scalar.totalCmp x y <;> simp_all [Ordering.swap]
    have hxy : Scalar.totalCmp a.estimate b.estimate ≠ .lt := fun h => hab (.inl h)
    have hyz : Scalar.totalCmp b.estimate c.estimate ≠ .lt := fun h => hbc (.inl h)
    have hzx := TotalCmpLaws.trans _ _ _ (key _ _ hyz) (key _ _ hxy)
    rcases hac with h | ⟨h, hg⟩
    · have h' := TotalCmpLaws.swap a.estimate c.estimate
      rw [h] at h'
      exact hzx (by rw [h']; rfl)
    · -- equal estimates of a and c force equal estimates throughout
      have hbx : Scalar.totalCmp b.estimate a.estimate ≠ .gt := key _ _ hxy
      have hac' := TotalCmpLaws.eq_left _ _ b.estimate h
      have hab' : Scalar.totalCmp a.estimate b.estimate = .eq := by
        have h1 : Scalar.totalCmp c.estimate b.estimate ≠ .gt := key _ _ hyz
        rw [← hac'] at h1
        cases h2 : Scalar.totalCmp a.estimate b.estimate with
        | lt => exact absurd h2 hxy
        | eq => rfl
        | gt => exact absurd h2 h1
      have hbc' : Scalar.totalCmp b.estimate c.estimate = .eq := by
        rw [← TotalCmpLaws.eq_left _ _ c.estimate hab']; exact h
      have g1 : Scalar.totalCmp a.distanceStartToRoot b.distanceStartToRoot ≠ .gt :=
        fun hh => hab (.inr ⟨hab', hh⟩)
      have g2 : Scalar.totalCmp b.distanceStartToRoot c.distanceStartToRoot ≠ .gt :=
        fun hh => hbc (.inr ⟨hbc', hh⟩)
      exact TotalCmpLaws.trans _ _ _ g1 g2 hg

/-- C37: every step of the search takes from the queue a node whose estimate is minimal. -/
theorem C37_pop_minimal [TotalCmpLaws K] (heap : Heap K) (hmax : heap.Max) (queue rest : List (SearchNode K))
    (n : SearchNode K) (h : heap.pop queue = some (n, rest)) :
    ∀ x ∈ queue, Scalar.totalCmp n.estimate x.estimate ≠ .gt := by
  intro x hx hgt
  have h1 := hmax queue n rest h x hx
  rw [Ne, C37_order] at h1
  refine h1 (.inl ?_)
  rw [TotalCmpLaws.swap n.estimate x.estimate, hgt]
  rfl

/-- C37: without `detailed-layers`, when a path is found its reported length is minimal among the
estimates of all queued nodes. -/
theorem C37_found_minimal [TotalCmpLaws K] (heap : Heap K) (hmax : heap.Max) (m : Mesh K)
    (inst inst' : Inst K) (p : Path K) (h : inst.next heap ⟨false⟩ m = .ok (.found p, inst')) :
    ∀ x ∈ inst.queue, Scalar.totalCmp p.length x.estimate ≠ .gt := by
  unfold Inst.next at h
  split at h
  · simp at h
  · rename_i next rest hp
    simp only at h
    split at h
    · simp at h
    · split at h
      · simp only [bind_eq_ok, Except.ok.injEq, Prod.mk.injEq, Step.found.injEq] at h
        obtain ⟨p', hf, rfl, -⟩ := h
        rw [((foundPath_shape hf).2.1 rfl).1]
        exact C37_pop_minimal heap hmax _ _ _ hp
      · simp [bind_eq_ok] at h

instance : TotalCmpLaws Rat where
  refl a := by simp [Scalar.totalCmp]
  swap a b := by
    simp only [Scalar.totalCmp]
    rcases lt_trichotomy a b with h | h | h
    · simp [h, not_lt_of_gt h, ne_of_gt h]
    · simp [h]
    · simp [h, not_lt_of_gt h, ne_of_gt h]
  trans a b c := by
    simp only [Scalar.totalCmp]
    split <;> split <;> split <;> simp_all <;> grind
  eq_left a b c h := by
    simp only [Scalar.totalCmp] at h
    have : a = b := by
      by_contra hne
      split at h <;> simp_all
    rw [this]

theorem popMax_none {K : Type} [Scalar K] : ∀ q : List (SearchNode K), popMax q = none → q = []
  | [], _ => rfl
  | a :: q, h => by
    simp only [popMax] at h
    split at h
    · simp at h
    · split at h <;> simp at h

/-- Non-vacuity of the heap contract: the heap of the examples satisfies it. -/
theorem maxHeap_max {K : Type} [Scalar K] [TotalCmpLaws K] : (maxHeap : Heap K).Max := by
  have hp := C37_total_preorder (K := K)
  have : ∀ (q : List (SearchNode K)) n r, popMax q = some (n, r) → ∀ x ∈ q, x.cmp n ≠ .gt := by
    intro q
    induction q with
    | nil => intro n r h; simp [popMax] at h
    | cons a q ih =>
      intro n r h x hx
      simp only [popMax] at h
      split at h
      · rename_i hnone
        simp only [Option.some.injEq, Prod.mk.injEq] at h
        obtain ⟨rfl, rfl⟩ := h
        rw [popMax_none _ hnone] at hx
        rw [List.mem_singleton.1 hx, hp.1]
        decide
      · rename_i m r' hm
        split at h
        · rename_i hgt
          simp only [Option.some.injEq, Prod.mk.injEq] at h
          obtain ⟨rfl, rfl⟩ := h
          rcases List.mem_cons.1 hx with rfl | hx
          · rw [hp.2.1 m x, hgt]; decide
          · exact ih _ _ hm x hx
        · rename_i hgt
          simp only [Option.some.injEq, Prod.mk.injEq] at h
          obtain ⟨rfl, rfl⟩ := h
          rcases List.mem_cons.1 hx with rfl | hx
          · rw [hp.1]; decide
          · exact hp.2.2 _ _ _ (ih _ _ hm x hx) hgt
  exact this

theorem ratHeap_max : ratHeap.Max := maxHeap_max

end Polyanya
