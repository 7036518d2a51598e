import Verif.Proofs.Unit
import Verif.Props.Shortest
import Verif.Props.Probes
import Verif.Props.Unbaked
/-
C90: the unit of length. The tolerances of the code are absolute, so the answers depend on it; in exact arithmetic, a mesh
without near misses has none in a unit in which it is larger, and paths are the same.
-/

namespace Polyanya

theorem located_same {K : Type} [Scalar K] {m : Mesh K} {bvh : Bvh K} {c : Coords K} {s s' : UInt32}
    (h : Located m bvh c s) (h' : Located m bvh c s') : s' = s := by
  have e := endpointPolygon_located.2 h
  rw [endpointPolygon_located.2 h'] at e
  simpa using e

theorem shortest_length {m m' : Mesh (Ext ℝ)} {k : ℝ} (hk : 0 < k) (u : m.InUnit k m') {s e : UInt32} {start goal : Vec2 ℝ}
    {p p' : Path (Ext ℝ)} (h : ShortestPath m s start e goal p)
    (h' : ShortestPath m' s (start.times k) e (goal.times k) p') :
    ∃ len : ℝ, p.length = Ext.fin len ∧ p'.length = Ext.fin (k * len) := by
  obtain ⟨ws, -, h2, h3⟩ := h
  obtain ⟨ws', -, h2', h3'⟩ := h'
  refine ⟨_, h2, ?_⟩
  rw [h2']
  congr 1
  have a := h3'.2 _ (unit_walk u hk h3.1)
  have b := (unit_shortestWalk u hk h3).2 _ h3'.1
  rw [le_antisymm a b, ← List.map_cons, polyLen_times hk]

/-- **C90, part.** In exact arithmetic and the default build: let `m'` be the mesh `m` in a unit in which lengths are `k ≥ 1`
times as large, `m` navigable and without near misses, and the end points located in the same polygons in both meshes. Then a
path that `m'` returns is a shortest one; if `m` returns a path too, its length is multiplied by exactly `k`; and if there is a
path in `m` there is one in `m'`, unless the limited number of steps is used up.

Missing: smaller units, which lose points and paths (`C90_false`), and the location of the end points. -/
theorem C90_larger_partial (bvh bvh' : Bvh (Ext ℝ)) (heap : Heap (Ext ℝ)) (hmax : heap.Max) (cfg : Cfg)
    (hcfg : cfg.detailed = false) {k : ℝ} (hk : 1 ≤ k) (m m' : Mesh (Ext ℝ)) (u : m.InUnit k m') (hsize : m.Sized)
    (hsize' : m'.Sized) (hc : Conforming m) (src dst src' dst' : Coords (Ext ℝ)) (start goal : Vec2 ℝ)
    (hsrc : src.pos = start.fin) (hdst : dst.pos = goal.fin) (hsrc' : src'.pos = (start.times k).fin)
    (hdst' : dst'.pos = (goal.times k).fin) (s e : UInt32) (hs : Located m bvh src s) (he : Located m bvh dst e)
    (hs' : Located m' bvh' src' s) (he' : Located m' bvh' dst' e) (his : InPolygon m s start) (hie : InPolygon m e goal)
    (hnav : Navigable m s start e goal) (hm : NoNearMiss m start goal) :
    (∀ p', m'.path bvh' heap cfg src' dst' = .ok (some p') → ShortestPath m' s (start.times k) e (goal.times k) p') ∧
    (∀ p, m.path bvh heap cfg src dst = .ok (some p) →
      (∀ p', m'.path bvh' heap cfg src' dst' = .ok (some p') →
        ∃ len : ℝ, p.length = Ext.fin len ∧ p'.length = Ext.fin (k * len)) ∧
      ((m'.layers.length = 1 → m'.IslandsTrue) → ∀ r, m'.path bvh' heap cfg src' dst' = .ok r →
        (∃ p', r = some p') ∨ (r = none ∧ BudgetUsedUp heap cfg m' src'.pos dst'.pos s e))) := by
  have hk0 : 0 < k := by linarith
  have his' := unit_inPolygon u hk0 his
  have hie' := unit_inPolygon u hk0 hie
  have hnav' := unit_navigable u hk hnav
  have hm' := unit_noNearMiss u hk hm
  have hc' := unit_conforming u hk0 hc
  have small : ∀ p, m.path bvh heap cfg src dst = .ok (some p) → ShortestPath m s start e goal p := by
    intro p hp
    obtain ⟨s1, e1, a, b, h⟩ := C54_shortest bvh heap hmax cfg hcfg m hsize hc src dst start goal hsrc hdst
      (fun x hx => by rw [located_same hs hx]; exact his) (fun x hx => by rw [located_same he hx]; exact hie)
      (fun x y hx hy => by rw [located_same hs hx, located_same he hy]; exact hnav) hm p hp
    rwa [located_same hs a, located_same he b] at h
  have large : ∀ p', m'.path bvh' heap cfg src' dst' = .ok (some p') →
      ShortestPath m' s (start.times k) e (goal.times k) p' := by
    intro p hp
    obtain ⟨s1, e1, a, b, h⟩ := C54_shortest bvh' heap hmax cfg hcfg m' hsize' hc' src' dst' _ _ hsrc' hdst'
      (fun x hx => by rw [located_same hs' hx]; exact his') (fun x hx => by rw [located_same he' hx]; exact hie')
      (fun x y hx hy => by rw [located_same hs' hx, located_same he' hy]; exact hnav') hm' p hp
    rwa [located_same hs' a, located_same he' b] at h
  refine ⟨large, fun p hp => ⟨fun p' hp' => shortest_length hk0 u (small p hp) (large p' hp'), fun hisl r hr => ?_⟩⟩
  obtain ⟨ws, -, -, hw⟩ := small p hp
  rcases C54_complete bvh' heap hmax cfg hcfg m' hsize' hc' hisl src' dst' _ _ hsrc' hdst' s e hs' he' his' hnav' hie' hm' _
    (unit_walk u hk0 hw.1) r hr with ⟨p', h, -⟩ | h
  · exact .inl ⟨p', h⟩
  · exact .inr h

theorem probe_times {k δ : ℝ} {x y : Vec2 ℝ} (h : Probe δ x y) : Probe (k * δ) (x.times k) (y.times k) := by
  obtain ⟨h1, h2⟩ := h
  constructor
  · rcases h1 with h | h | h
    · left; simp only [Vec2.times]; rw [h]
    · right; left; simp only [Vec2.times]; rw [h]; ring
    · right; right; simp only [Vec2.times]; rw [h]; ring
  · rcases h2 with h | h | h
    · left; simp only [Vec2.times]; rw [h]
    · right; left; simp only [Vec2.times]; rw [h]; ring
    · right; right; simp only [Vec2.times]; rw [h]; ring

theorem unit_inLayer {k : ℝ} (hk : 0 < k) {m m' : Mesh (Ext ℝ)} (u : m.InUnit k m') {j : Nat} {x : Vec2 ℝ}
    (h : InLayer m j x) : InLayer m' j (x.times k) := by
  obtain ⟨id, h1, h2⟩ := h
  exact ⟨id, h1, unit_inPolygon u hk h2⟩

/-- **C90, part** (`point_in_mesh`). In exact arithmetic, in a unit in which lengths are `k ≥ 1` times as large, the same points
are in the mesh: of the points for which no side test of a probe is nearly zero. -/
theorem C90_in_mesh_partial (bvh bvh' : Bvh (Ext ℝ)) (hb : bvh.Complete) (hb' : bvh'.Complete) {k : ℝ} (hk : 1 ≤ k)
    (m m' : Mesh (Ext ℝ)) (u : m.InUnit k m') (hm : m.Searchable) (hm' : m'.Searchable) (hc : Conforming m)
    (ho : ∀ l ∈ m.layers, ∃ o : Vec2 ℝ, l.offset = o.fin) (ho' : ∀ l ∈ m'.layers, ∃ o : Vec2 ℝ, l.offset = o.fin)
    (δ : ℝ) (hδ : m.searchDelta = Ext.fin δ) (hδ' : m'.searchDelta = Ext.fin (k * δ)) (c c' : Coords (Ext ℝ)) (x : Vec2 ℝ)
    (hpos : c.pos = x.fin) (hpos' : c'.pos = (x.times k).fin) (hlayer : c'.layer = c.layer)
    (hx : ∀ y, Probe δ x y → Sharp m y) :
    m'.pointInMesh bvh' c' = m.pointInMesh bvh c ∧ ∃ b, m.pointInMesh bvh c = .ok b := by
  have hk0 : 0 < k := by linarith
  have hk' : k ≠ 0 := hk0.ne'
  have us := u.symm hk'
  have hi : 0 < k⁻¹ := inv_pos.2 hk0
  have hlen : m.layers.length = m'.layers.length := List.Forall₂.length_eq u
  have back : ∀ {y}, Probe (k * δ) (x.times k) y → Probe δ x (y.times k⁻¹) := by
    intro y hy
    have := probe_times (k := k⁻¹) hy
    rwa [times_times hk', inv_mul_cancel_left₀ hk'] at this
  have hle : k⁻¹ * k⁻¹ ≤ 1 := by
    have : k⁻¹ ≤ 1 := inv_le_one_of_one_le₀ hk
    nlinarith
  obtain ⟨b, h1, h2⟩ := C77_point_in_mesh bvh hb m hm hc ho δ hδ c x hpos hx
  obtain ⟨b', h1', h2'⟩ := C77_point_in_mesh bvh' hb' m' hm' (unit_conforming u hk0 hc) ho' (k * δ) hδ' c' (x.times k) hpos' (by
    intro y hy A B hAB ht
    have key := hx _ (back hy) _ _ (unit_isEdgeAt us hAB) (by
      rw [tri_times, abs_mul, abs_of_pos (by positivity)]
      exact lt_of_le_of_lt (mul_le_of_le_one_left (abs_nonneg _) hle) ht)
    rw [tri_times] at key
    rcases mul_eq_zero.1 key with h | h
    · exact absurd h (by positivity)
    · exact h)
  refine ⟨?_, b, h1⟩
  rw [h1, h1']
  congr 1
  rw [Bool.eq_iff_iff, h2, h2']
  unfold Allowed
  rw [hlayer]
  constructor
  · rintro ⟨j, y, a1, a2, a3, a4⟩
    refine ⟨j, _, by omega, a2, back a3, ?_⟩
    have := unit_inLayer hi us a4
    exact this
  · rintro ⟨j, y, a1, a2, a3, a4⟩
    exact ⟨j, _, by omega, a2, probe_times a3, unit_inLayer hk0 u a4⟩

/-- The L-shaped mesh of three squares, with squares of side `1 / 2^n`, and the `search_delta` `1 / 2^(n+3)`. Nothing is
rounded. -/
def cornerMesh (n : Nat) : Mesh B32 :=
  { Mesh.ofLayers [Layer.mk' (exVertices.map fun v =>
      Vertex.new ((f2 v.coords.x.floor v.coords.y.floor).smul (Scalar.ofNat 1 /. Scalar.ofNat (2 ^ n))) v.polygons) exPolygons] with
    searchDelta := Scalar.ofNat 1 /. Scalar.ofNat (2 ^ (n + 3)) }

/-- The point `(x/8, y/8)`, in the unit of `cornerMesh n`. -/
def cornerPoint (n : Nat) (x y : Int) : Coords B32 :=
  Coords.onMesh ((f2 x y).smul (Scalar.ofNat 1 /. Scalar.ofNat (2 ^ (n + 3))))

set_option maxHeartbeats 0 in
theorem corner_large : resIs ((cornerMesh 0).path everyIndex maxHeap ⟨false⟩ (cornerPoint 0 12 2) (cornerPoint 0 2 12))
    (fun r => r.isSome) = true := by decide +kernel

/-- **C90, false as stated.** With f32 numbers: of an L-shaped mesh of three squares of side 1 and of the same mesh with squares
of side 1/64 (and `search_delta` and the points to match; nothing is rounded), a path in the first one is not found in the
second one: the end points, in the middle of squares, are not in the mesh. -/
theorem C90_false :
    (cornerMesh 0).pointInMesh everyIndex (cornerPoint 0 12 2) = .ok true ∧
    (cornerMesh 0).pointInMesh everyIndex (cornerPoint 0 2 12) = .ok true ∧
    (∃ p, (cornerMesh 0).path everyIndex maxHeap ⟨false⟩ (cornerPoint 0 12 2) (cornerPoint 0 2 12) = .ok (some p)) ∧
    (cornerMesh 6).pointInMesh everyIndex (cornerPoint 6 12 2) = .ok false ∧
    (cornerMesh 6).pointInMesh everyIndex (cornerPoint 6 2 12) = .ok false ∧
    (cornerMesh 6).path everyIndex maxHeap ⟨false⟩ (cornerPoint 6 12 2) (cornerPoint 6 2 12) = .ok none := by
  refine ⟨by decide +kernel, by decide +kernel, ?_, by decide +kernel, by decide +kernel, ?_⟩
  · obtain ⟨r, h1, h2⟩ := of_resIs corner_large
    obtain ⟨p, rfl⟩ := Option.isSome_iff_exists.1 h2
    exact ⟨p, h1⟩
  · have : resIs ((cornerMesh 6).path everyIndex maxHeap ⟨false⟩ (cornerPoint 6 12 2) (cornerPoint 6 2 12))
        (fun r => r.isNone) = true := by decide +kernel
    obtain ⟨r, h1, h2⟩ := of_resIs this
    rw [h1, Option.isNone_iff_eq_none.1 h2]

end Polyanya
