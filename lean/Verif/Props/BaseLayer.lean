import Verif.Props.Triangulation
import Verif.Props.TriangulationExamples
import Verif.Spec.Path
import Verif.Proofs.Corridor
/-
C68: a builder started from a layer of a mesh keeps to that layer.
-/

namespace Polyanya

variable {K : Type} [Scalar K]

/-! ### Specification -/

/-- `geo`: nothing is inside a polygon without exterior. -/
def TriLib.EmptyIsEmpty (lib : TriLib K) : Prop := ∀ holes z, lib.contains ⟨[], holes⟩ z = false

/-- The two points are joined by a constraint edge. -/
def CdtJoined (c : Cdt K) (a b : Vec2 K) : Prop := Constrained c a b ∨ Constrained c b a

/-- The rings the obstacles have become are exactly `rings`. -/
def ObstaclesBecome (lib : TriLib K) (t : Triangulation K) (ops : List (BuildOp K)) (rings : List (LineString K)) : Prop :=
  (∀ before rest edges, HasObstacle t ops before rest edges →
    ∃ r ∈ rings, BecomesOutline lib t.baseLayer.isSome before rest (LineString.close edges) r) ∧
  ∀ r ∈ rings, ∃ before rest edges, HasObstacle t ops before rest edges ∧
    BecomesOutline lib t.baseLayer.isSome before rest (LineString.close edges) r

/-! ### The constraints -/

/-- Invariant of the loop over the edges of the base layer. -/
structure BaseInv (l : Layer K) (s : BaseState K) : Prop where
  handles : ∀ v h, s.2.1.lookup v = some h → ∃ vx, l.vertices[v.toNat]? = some vx ∧ (Cdt.points s.2.2)[h]? = some vx.coords
  edges : ∀ a b, (a, b) ∈ s.1 → a ≠ b → ∀ va vb, l.vertices[a.toNat]? = some va → l.vertices[b.toNat]? = some vb →
    CdtJoined s.2.2 va.coords vb.coords

theorem CdtJoined.prefix {c c' : Cdt K} (h : c <+: c') {a b : Vec2 K} (hj : CdtJoined c a b) : CdtJoined c' a b :=
  hj.imp (constrained_prefix h) (constrained_prefix h)

theorem CdtJoined.symm {c : Cdt K} {a b : Vec2 K} (hj : CdtJoined c a b) : CdtJoined c b a := Or.symm hj

theorem points_prefix {c c' : Cdt K} (h : c <+: c') {i : Nat} {p : Vec2 K} (hp : (Cdt.points c)[i]? = some p) :
    (Cdt.points c')[i]? = some p := by
  obtain ⟨d, rfl⟩ := h
  rw [points_append, List.getElem?_append_left (lt_of_getElem? hp)]
  exact hp

theorem baseVertex_ok {lib : TriLib K} {l : Layer K} {s : List (UInt32 × Nat) × Cdt K} {v : UInt32}
    {r : (List (UInt32 × Nat) × Cdt K) × Nat} (h : baseVertex lib l s v = .ok r)
    (hs : ∀ v h, s.1.lookup v = some h → ∃ vx, l.vertices[v.toNat]? = some vx ∧ (Cdt.points s.2)[h]? = some vx.coords) :
    s.2 <+: r.1.2 ∧ (∃ vx, l.vertices[v.toNat]? = some vx ∧ (Cdt.points r.1.2)[r.2]? = some vx.coords) ∧
    ∀ v h, r.1.1.lookup v = some h → ∃ vx, l.vertices[v.toNat]? = some vx ∧ (Cdt.points r.1.2)[h]? = some vx.coords := by
  unfold baseVertex at h
  split at h
  · rename_i n hn
    rw [Except.ok.injEq] at h
    subst h
    exact ⟨List.prefix_refl _, hs v n hn, hs⟩
  · simp only [bind_eq_ok, Except.ok.injEq] at h
    obtain ⟨vx, hvx, a, ha, rfl⟩ := h
    obtain ⟨-, e⟩ := add_ok ha
    subst e
    have hp : s.2 <+: s.2 ++ [CdtOp.insert vx.coords] := List.prefix_append _ _
    have hnew : (Cdt.points (s.2 ++ [CdtOp.insert vx.coords]))[s.2.inserted]? = some vx.coords := by
      rw [points_append, inserted_eq, List.getElem?_append_right (le_refl _)]
      simp [Cdt.points]
    have hv := idx_eq_ok.1 hvx
    refine ⟨hp, ⟨vx, hv, hnew⟩, ?_⟩
    intro w k hk
    rw [List.lookup_cons] at hk
    split at hk
    · rename_i e
      rw [beq_iff_eq] at e
      rw [Option.some.injEq] at hk
      subst e hk
      exact ⟨vx, hv, hnew⟩
    · obtain ⟨vx', h1, h2⟩ := hs w k hk
      exact ⟨vx', h1, points_prefix hp h2⟩

theorem baseEdge_ok {lib : TriLib K} {l : Layer K} {s s' : BaseState K} {e : UInt32 × UInt32} (hs : BaseInv l s)
    (h : baseEdge lib l s e = .ok s') : BaseInv l s' ∧ s.1 ⊆ s'.1 ∧ e ∈ s'.1 := by
  unfold baseEdge at h
  split at h
  · rename_i hc
    rw [Except.ok.injEq] at h
    subst h
    exact ⟨hs, fun _ => id, by simpa using hc⟩
  · simp only at h
    split at h
    · rename_i hnc hc
      rw [Except.ok.injEq] at h
      subst h
      refine ⟨⟨hs.handles, ?_⟩, fun x hx => List.mem_cons_of_mem _ hx, by simp⟩
      intro a b hab hne va vb ha hb
      rcases List.mem_cons.1 hab with hab | hab
      · rw [Prod.mk.injEq] at hab
        obtain ⟨rfl, rfl⟩ := hab
        rw [List.contains_iff_mem, List.mem_cons, Prod.mk.injEq] at hc
        rcases hc with hc | hc
        · exact absurd hc.2 hne
        · exact (hs.edges _ _ hc (Ne.symm hne) _ _ hb ha).symm
      · exact hs.edges a b hab hne va vb ha hb
    · simp only [bind_eq_ok, Except.ok.injEq] at h
      obtain ⟨r0, h0, r1, h1, rfl⟩ := h
      obtain ⟨p0, ⟨x0, hx0, hp0⟩, q0⟩ := baseVertex_ok h0 hs.handles
      obtain ⟨p1, ⟨x1, hx1, hp1⟩, q1⟩ := baseVertex_ok h1 q0
      have hp : r1.1.2 <+: r1.1.2 ++ [CdtOp.constrain r0.2 r1.2] := List.prefix_append _ _
      have hnew : Constrained (r1.1.2 ++ [CdtOp.constrain r0.2 r1.2]) x0.coords x1.coords :=
        ⟨r0.2, r1.2, by simp, points_prefix (p1.trans hp) hp0, points_prefix hp hp1⟩
      refine ⟨⟨?_, ?_⟩, fun x hx => List.mem_cons_of_mem _ (List.mem_cons_of_mem _ hx), by simp⟩
      · intro v n hn
        obtain ⟨vx, k1, k2⟩ := q1 v n hn
        exact ⟨vx, k1, points_prefix hp k2⟩
      · intro a b hab hne va vb ha hb
        simp only [List.mem_cons, Prod.mk.injEq] at hab
        rcases hab with ⟨rfl, rfl⟩ | ⟨rfl, rfl⟩ | hab
        · rw [hx1, Option.some.injEq] at ha
          rw [hx0, Option.some.injEq] at hb
          subst ha hb
          exact .inr hnew
        · rw [hx0, Option.some.injEq] at ha
          rw [hx1, Option.some.injEq] at hb
          subst ha hb
          exact .inl hnew
        · exact (hs.edges a b hab hne va vb ha hb).prefix ((p0.trans p1).trans hp)

theorem baseEdges_ok {lib : TriLib K} {l : Layer K} : ∀ {es : List (UInt32 × UInt32)} {s s' : BaseState K}, BaseInv l s →
    es.foldlM (baseEdge lib l) s = .ok s' → BaseInv l s' ∧ s.1 ⊆ s'.1 ∧ ∀ e ∈ es, e ∈ s'.1
  | [], s, s', hs, h => by
    simp only [List.foldlM_nil, res_pure, Except.ok.injEq] at h
    subst h
    exact ⟨hs, fun _ => id, by simp⟩
  | e :: es, s, s', hs, h => by
    rw [List.foldlM_cons, bind_eq_ok] at h
    obtain ⟨s1, h1, h2⟩ := h
    obtain ⟨a1, a2, a3⟩ := baseEdge_ok hs h1
    obtain ⟨b1, b2, b3⟩ := baseEdges_ok a1 h2
    refine ⟨b1, fun x hx => b2 (a2 hx), ?_⟩
    intro x hx
    rcases List.mem_cons.1 hx with rfl | hx
    · exact b2 a3
    · exact b3 x hx

theorem basePolygons_ok {lib : TriLib K} {l : Layer K} : ∀ {ps : List Polygon} {s s' : BaseState K}, BaseInv l s →
    ps.foldlM (fun s p => do
      let es ← p.edgesIndex
      es.foldlM (baseEdge lib l) s) s = .ok s' →
    BaseInv l s' ∧ s.1 ⊆ s'.1 ∧ ∀ p ∈ ps, ∀ a b, IsEdge p.vertices a b → (a, b) ∈ s'.1
  | [], s, s', hs, h => by
    simp only [List.foldlM_nil, res_pure, Except.ok.injEq] at h
    subst h
    exact ⟨hs, fun _ => id, by simp⟩
  | p :: ps, s, s', hs, h => by
    rw [List.foldlM_cons, bind_eq_ok] at h
    obtain ⟨s1, h1, h2⟩ := h
    rw [bind_eq_ok] at h1
    obtain ⟨es, he, h1⟩ := h1
    obtain ⟨a1, a2, a3⟩ := baseEdges_ok hs h1
    obtain ⟨b1, b2, b3⟩ := basePolygons_ok a1 h2
    refine ⟨b1, fun x hx => b2 (a2 hx), ?_⟩
    intro q hq a b hab
    rcases List.mem_cons.1 hq with rfl | hq
    · exact b2 (a3 _ ((mem_edgesIndex he a b).2 hab))
    · exact b3 q hq a b hab

theorem addBaseLayer_cdtJoined {lib : TriLib K} {l : Layer K} {c c' : Cdt K} (h : addBaseLayer lib l c = .ok c') :
    ∀ p ∈ l.polygons, ∀ a b, IsEdge p.vertices a b → a ≠ b → ∀ va vb, l.vertices[a.toNat]? = some va →
      l.vertices[b.toNat]? = some vb → CdtJoined c' va.coords vb.coords := by
  unfold addBaseLayer at h
  simp only [bind_eq_ok, Except.ok.injEq] at h
  obtain ⟨s, h, rfl⟩ := h
  obtain ⟨h1, -, h3⟩ := basePolygons_ok ⟨by simp, by simp⟩ h
  intro p hp a b hab hne va vb ha hb
  exact h1.edges a b (h3 p hp a b hab) hne va vb ha hb

/-! ### The obstacles -/

/-- Where the rings of a builder that started from a layer come from. -/
theorem ring_origin {lib : TriLib K} : ∀ {ops : List (BuildOp K)} {t t' : Triangulation K} {before : List (BuildOp K)}
    {r' : LineString K}, t.baseLayer.isSome = true → runOps lib t ops = .ok t' → r' ∈ t'.inner.interiors →
    (∃ r ∈ t.inner.interiors, ∀ g, Grown lib (lastSettings (before ++ ops)) r' g → BecomesOutline lib true before ops r g) ∨
    ∃ a o rest edges, ops = a ++ o :: rest ∧ o.Adds edges ∧ ∀ g, Grown lib (lastSettings (before ++ ops)) r' g →
      BecomesOutline lib true (before ++ a ++ [o]) rest (LineString.close edges) g
  | [], t, t', before, r', _, h, hr => by
    simp only [runOps, List.foldlM_nil, res_pure, Except.ok.injEq] at h
    subst h
    refine .inl ⟨r', hr, fun g hg => ?_⟩
    rw [List.append_nil] at hg
    unfold BecomesOutline
    exact hg
  | o :: ops, t, t', before, r', hb, h, hr => by
    rw [runOps_cons, bind_eq_ok] at h
    obtain ⟨t1, h1, h2⟩ := h
    have hb1 : t1.baseLayer.isSome = true := by
      cases o
      case prebuild => rw [prebuild_base hb h1]; exact hb
      all_goals
        simp only [BuildOp.run, Except.ok.injEq] at h1
        subst h1
        exact hb
    have ih := ring_origin (before := before ++ [o]) hb1 h2 hr
    have e1 : before ++ [o] ++ ops = before ++ o :: ops := by simp
    rw [e1] at ih
    rcases ih with ⟨r, hr1, hg1⟩ | ⟨a, o', rest, edges, e, ho, hg1⟩
    · -- the ring before the call
      cases o with
      | setRadius x =>
        simp only [BuildOp.run, Except.ok.injEq] at h1
        subst h1
        exact .inl ⟨r, hr1, fun g hg => by unfold BecomesOutline; exact hg1 g hg⟩
      | setSegments x =>
        simp only [BuildOp.run, Except.ok.injEq] at h1
        subst h1
        exact .inl ⟨r, hr1, fun g hg => by unfold BecomesOutline; exact hg1 g hg⟩
      | setSimplification x =>
        simp only [BuildOp.run, Except.ok.injEq] at h1
        subst h1
        exact .inl ⟨r, hr1, fun g hg => by unfold BecomesOutline; exact hg1 g hg⟩
      | setOuterEdge x =>
        simp only [BuildOp.run, Except.ok.injEq] at h1
        subst h1
        exact .inl ⟨r, hr1, fun g hg => by unfold BecomesOutline; exact hg1 g hg⟩
      | prebuild =>
        rw [prebuild_base hb h1] at hr1
        refine .inl ⟨r, hr1, fun g hg => ?_⟩
        unfold BecomesOutline
        rw [if_pos rfl]
        exact hg1 g hg
      | addObstacle edges =>
        simp only [BuildOp.run, Except.ok.injEq] at h1
        subst h1
        rcases List.mem_append.1 hr1 with hr1 | hr1
        · exact .inl ⟨r, hr1, fun g hg => by unfold BecomesOutline; exact hg1 g hg⟩
        · rw [List.mem_singleton] at hr1
          subst hr1
          refine .inr ⟨[], _, ops, edges, rfl, .inl rfl, fun g hg => ?_⟩
          rw [List.append_nil]
          exact hg1 g hg
      | addObstacles all =>
        simp only [BuildOp.run, Except.ok.injEq] at h1
        subst h1
        obtain ⟨x, hx, rfl⟩ := List.mem_map.1 hr1
        rcases List.mem_append.1 hx with hx | hx
        · exact .inl ⟨x, hx, fun g hg => by unfold BecomesOutline; exact hg1 g hg⟩
        · refine .inr ⟨[], _, ops, x, rfl, .inr ⟨all, rfl, hx⟩, fun g hg => ?_⟩
          rw [List.append_nil]
          exact hg1 g hg
      | simplify e =>
        simp only [BuildOp.run, Except.ok.injEq] at h1
        subst h1
        obtain ⟨x, hx, rfl⟩ := List.mem_map.1 hr1
        exact .inl ⟨x, hx, fun g hg => by unfold BecomesOutline; exact hg1 g hg⟩
    · refine .inr ⟨o :: a, o', rest, edges, by rw [e]; rfl, ho, fun g hg => ?_⟩
      have := hg1 g hg
      simpa using this

/-- Every ring after growing is a grown ring. -/
theorem apply_grown_back (hz : ZeroIsSmall K) {lib : TriLib K} {a : AgentRadius K} {p p' : GeoPolygon K}
    (h : a.apply lib p = .ok p') : ∀ r' ∈ p'.interiors, ∃ r ∈ p.interiors, Grown lib a.settings r r' := by
  have hz' : ¬ (Scalar.lit 1 5 <. (Scalar.lit 0 0 : K)) = true := by
    have : (Scalar.lit 1 5 <. (Scalar.lit 0 0 : K)) = false := hz
    rw [this]; simp
  have hinf : ∀ {d e : K} {n : UInt8} {q q' : GeoPolygon K}, q.inflateObstacles lib d n.toNat e = .ok q' →
      ∀ r' ∈ q'.interiors, ∃ r ∈ q.interiors, ∃ outline holes, inflateOutline lib r d n.toNat = .ok (outline, holes) ∧
        r' = LineString.close (lib.simplifyVw outline e) := by
    intro d e n q q' h r' hr'
    unfold GeoPolygon.inflateObstacles at h
    simp only [bind_eq_ok] at h
    obtain ⟨rings, h1, h2⟩ := h
    rw [Except.ok.injEq] at h2
    subst h2
    simp only [GeoPolygon.new, List.mem_map] at hr'
    obtain ⟨x, hx, rfl⟩ := hr'
    rw [mapM_ok_iff] at h1
    obtain ⟨i, hi, rfl⟩ := List.getElem_of_mem hx
    have hi' : i < q.interiors.length := by rw [h1.length_eq]; exact hi
    have hget := h1.get hi' hi
    simp only [List.get_eq_getElem, bind_eq_ok, Except.ok.injEq] at hget
    obtain ⟨o, ho, he⟩ := hget
    exact ⟨q.interiors[i], List.getElem_mem hi', o.1, o.2, ho, by rw [he]⟩
  intro r' hr'
  cases a with
  | none =>
    simp only [AgentRadius.apply, Except.ok.injEq] at h
    subst h
    refine ⟨r', hr', ?_⟩
    unfold Grown
    rw [if_neg (by exact hz')]
  | obstacles d n e =>
    simp only [AgentRadius.apply] at h
    split at h
    · rename_i hb
      obtain ⟨r, hr, h4⟩ := hinf h r' hr'
      refine ⟨r, hr, ?_⟩
      unfold Grown
      rw [if_pos (by exact hb)]
      exact h4
    · rename_i hb
      rw [Except.ok.injEq] at h
      subst h
      refine ⟨r', hr', ?_⟩
      unfold Grown
      rw [if_neg (by exact hb)]
  | everything d n e =>
    simp only [AgentRadius.apply] at h
    split at h
    · rename_i hb
      unfold GeoPolygon.inflate at h
      simp only [bind_eq_ok] at h
      obtain ⟨o, -, obs, ho, hole, -, h⟩ := h
      rw [Except.ok.injEq] at h
      subst h
      obtain ⟨r, hr, h4⟩ := hinf ho r' hr'
      refine ⟨r, hr, ?_⟩
      unfold Grown
      rw [if_pos (by exact hb)]
      exact h4
    · rename_i hb
      rw [Except.ok.injEq] at h
      subst h
      refine ⟨r', hr', ?_⟩
      unfold Grown
      rw [if_neg (by exact hb)]

/-- The exterior of a builder that started from a layer stays empty. -/
theorem base_exterior {lib : TriLib K} {ops : List (BuildOp K)} {l : Layer K} {t' : Triangulation K}
    (h : runOps lib (Triangulation.fromMeshLayer l) ops = .ok t') :
    t'.inner.exterior = [] ∧ t'.baseLayer = some l ∧ t'.prebuilt = none := by
  refine foldlM_inv (P := fun s => s.inner.exterior = [] ∧ s.baseLayer = some l ∧ s.prebuilt = none)
    ⟨rfl, rfl, rfl⟩ ?_ h
  intro s o s' _ hs h
  cases o with
  | prebuild =>
    have := prebuild_base (by rw [hs.2.1]; rfl) h
    subst this
    exact hs
  | addObstacles all =>
    simp only [BuildOp.run, Except.ok.injEq] at h
    subst h
    refine ⟨?_, hs.2⟩
    simp only [Triangulation.addObstacles, GeoPolygon.new, hs.1]
    rfl
  | _ =>
    simp only [BuildOp.run, Except.ok.injEq] at h
    subst h
    exact hs

/-! ### The property -/

/-- **C68**: `from_mesh` panics for a layer that does not exist; otherwise the builder is the one of `from_mesh_layer` for that
layer of the mesh. -/
theorem C68_from_mesh (m : Mesh K) (i : UInt8) :
    (∀ l, m.layers[i.toNat]? = some l → Triangulation.fromMesh m i = .ok (Triangulation.fromMeshLayer l)) ∧
    (m.layers[i.toNat]? = none → Triangulation.fromMesh m i = .error .panic) := by
  unfold Triangulation.fromMesh idx
  constructor
  · intro l hl
    rw [hl]; rfl
  · intro h
    rw [h]; rfl

/-- **C68**: whatever is called on a builder started from layer `i` of a mesh, if `as_layer` makes a layer, then every edge
of every polygon of the layer started from is a constraint edge, and the polygons are exactly the faces of the triangulation
whose center is located on the layer started from and outside of all that the obstacles have become. `as_navmesh` makes a
mesh of only that layer. -/
theorem C68_base_layer (hz : ZeroIsSmall K) (lib : TriLib K) (hnan : lib.RefusesNan) (hholes : lib.HolesExcluded)
    (hempty : lib.EmptyIsEmpty) (bvh : Bvh K) (m : Mesh K) (i : UInt8) (t t' : Triangulation K)
    (ht : Triangulation.fromMesh m i = .ok t) (ops : List (BuildOp K)) (h : runOps lib t ops = .ok t')
    (l : Layer K) (hl : t'.asLayer lib bvh = .ok l) :
    t'.asNavmesh lib bvh = .ok (Mesh.ofLayers [l]) ∧
    ∃ base, m.layers[i.toNat]? = some base ∧ ∃ cdt d kept rings, lib.triangulate cdt = .ok d ∧ FacesOf lib l cdt kept ∧
      ObstaclesBecome lib t ops rings ∧
      (∀ p ∈ base.polygons, ∀ a b, IsEdge p.vertices a b → a ≠ b → ∀ va vb, base.vertices[a.toNat]? = some va →
        base.vertices[b.toNat]? = some vb → CdtJoined cdt va.coords vb.coords) ∧
      kept.Sublist d.inner ∧
      ∀ f ∈ d.inner, f ∈ kept ↔ (∃ id, base.getPointLocation bvh f.center (Scalar.lit 0 0) = .ok (some id)) ∧
        ∀ r ∈ rings, lib.contains ⟨r, []⟩ f.center = false := by
  refine ⟨by unfold Triangulation.asNavmesh; rw [hl]; rfl, ?_⟩
  obtain ⟨base, hbase⟩ : ∃ base, m.layers[i.toNat]? = some base := by
    cases hb : m.layers[i.toNat]? with
    | none => rw [(C68_from_mesh m i).2 hb] at ht; simp at ht
    | some base => exact ⟨base, rfl⟩
  refine ⟨base, hbase, ?_⟩
  rw [(C68_from_mesh m i).1 base hbase, Except.ok.injEq] at ht
  have ht := ht.symm
  have hst : Started t := by rw [ht]; exact .meshLayer base
  have htb : t.baseLayer.isSome = true := by rw [ht]; rfl
  have htn : t.inner.interiors = [] := by rw [ht]; rfl
  obtain ⟨hext, hbl, hpre⟩ := base_exterior (by rw [← ht]; exact h)
  obtain ⟨hi, -⟩ := runOps_inv hz hnan (started_inv hst) h
  have hset : t'.agentRadius.settings = lastSettings ops := by
    simpa using runOps_settings (before := []) (by rw [(started_fresh hst).1]; rfl) h
  unfold Triangulation.asLayer at hl
  rw [bind_eq_ok] at hl
  obtain ⟨⟨inner, cdt⟩, hc, hl⟩ := hl
  rw [bind_eq_ok] at hl
  obtain ⟨d, hd, hl⟩ := hl
  simp only at hd hl
  unfold TriData.toLayer at hl
  simp only [bind_eq_ok] at hl
  obtain ⟨kept, hk, map, -, vs, -, hl⟩ := hl
  rw [Except.ok.injEq] at hl
  subst hl
  have hk' := keptFaces_eq hk
  have hsub : kept.Sublist d.inner := by rw [hk']; exact List.filter_sublist
  unfold Triangulation.constraints at hc
  simp only [bind_eq_ok, Except.ok.injEq, Prod.mk.injEq] at hc
  obtain ⟨c1, hc1, c2, hc2, inner', hc3, c3, hc4, rfl, rfl⟩ := hc
  obtain ⟨k1, k2⟩ := apply_grown hz hi.closed hc3
  have kb := apply_grown_back hz hc3
  obtain ⟨p3, k3⟩ := addRings_ok hc4
  have hfix : ∀ r ∈ inner'.interiors, LineString.close r = r := fun r hr =>
    close_fixed hnan (k1 r hr) (fun a b hab => (k3 r hr a b hab).2.1)
  have hj : ∀ p ∈ base.polygons, ∀ a b, IsEdge p.vertices a b → a ≠ b → ∀ va vb, base.vertices[a.toNat]? = some va →
      base.vertices[b.toNat]? = some vb → CdtJoined c2 va.coords vb.coords := by
    unfold addBase at hc2
    rw [hbl] at hc2
    exact addBaseLayer_cdtJoined hc2
  -- the exterior stays empty
  have hext' : inner'.exterior = [] := by
    have hnil : LineString.close ([] : LineString K) = [] := rfl
    cases ha : t'.agentRadius with
    | none =>
      rw [ha] at hc3
      simp only [AgentRadius.apply, Except.ok.injEq] at hc3
      rw [← hc3, hext]
    | obstacles a b c =>
      rw [ha] at hc3
      simp only [AgentRadius.apply] at hc3
      split at hc3
      · rw [(inflateObstacles_grown hc3).1, hext, hnil]
      · rw [Except.ok.injEq] at hc3
        rw [← hc3, hext]
    | everything a b c =>
      rw [ha] at hc3
      simp only [AgentRadius.apply] at hc3
      split at hc3
      · unfold GeoPolygon.inflate inflateOutline at hc3
        rw [hext] at hc3
        simp only [windows2, bind_eq_ok] at hc3
        obtain ⟨_, h0, -⟩ := hc3
        simp at h0
      · rw [Except.ok.injEq] at hc3
        rw [← hc3, hext]
  refine ⟨c3, d, kept, inner'.interiors, hd, ⟨d, hd, hsub, rfl⟩, ⟨?_, ?_⟩, ?_, hsub, ?_⟩
  · intro before rest edges ho
    rcases obstacle_fate hz hnan hst h ho with ⟨r, hr, hbec⟩ | ⟨r, u, c, hp, -⟩
    · obtain ⟨r', hr', hg⟩ := k2 r hr
      rw [hset] at hg
      exact ⟨r', hr', hbec r' hg⟩
    · rw [hpre] at hp
      simp at hp
  · intro r hr
    obtain ⟨r0, hr0, hg⟩ := kb r hr
    rw [hset] at hg
    rw [htb]
    rcases ring_origin (before := []) htb h hr0 with ⟨x, hx, -⟩ | ⟨a, o, rest, edges, e, ho, hb⟩
    · rw [htn] at hx
      simp at hx
    · exact ⟨a ++ [o], rest, edges, .added e ho, hb r hg⟩
  · intro p hp a b hab hne va vb ha hb
    exact (hj p hp a b hab hne va vb ha hb).prefix p3
  · intro f hf
    have hin : lib.contains inner' f.center = false := by
      have := hempty inner'.interiors f.center
      rw [← hext'] at this
      exact this
    have hkeeps : t'.keeps lib bvh inner' f.center = (do
        let loc ← base.getPointLocation bvh f.center (Scalar.lit 0 0)
        .ok (loc.isSome && !inner'.interiors.any (fun o => lib.contains (GeoPolygon.new o []) f.center))) := by
      unfold Triangulation.keeps
      rw [hin, Bool.and_false, hbl]
      rfl
    have hany : inner'.interiors.any (fun o => lib.contains (GeoPolygon.new o []) f.center) = false ↔
        ∀ r ∈ inner'.interiors, lib.contains ⟨r, []⟩ f.center = false := by
      rw [List.any_eq_false]
      constructor
      · intro h r hr
        have := h r hr
        unfold GeoPolygon.new at this
        rw [hfix r hr] at this
        simpa using this
      · intro h r hr
        unfold GeoPolygon.new
        rw [hfix r hr]
        simpa using h r hr
    rw [← hany, hk', List.mem_filter, decide_eq_true_eq, hkeeps]
    simp only [hf, true_and, bind_eq_ok, Except.ok.injEq, Bool.and_eq_true, Bool.not_eq_true']
    constructor
    · rintro ⟨loc, h1, h2, h3⟩
      obtain ⟨id, rfl⟩ := Option.isSome_iff_exists.1 h2
      exact ⟨⟨id, h1⟩, h3⟩
    · rintro ⟨⟨id, h1⟩, h3⟩
      exact ⟨some id, h1, rfl, h3⟩

/-- **C68**: with the agent radius on the outer edge (and a radius over `1e-5`), `as_layer` panics for every builder started
from a layer. -/
theorem C68_outer_edge_panics (lib : TriLib K) (bvh : Bvh K) (l : Layer K) (t' : Triangulation K) (ops : List (BuildOp K))
    (h : runOps lib (Triangulation.fromMeshLayer l) ops = .ok t') (ho : (lastSettings ops).outerEdge = true)
    (hr : (Scalar.lit 1 5 <. (lastSettings ops).radius) = true) : t'.asLayer lib bvh = .error .panic := by
  obtain ⟨hext, -, hpre⟩ := base_exterior h
  have hset : t'.agentRadius.settings = lastSettings ops := by
    simpa using runOps_settings (before := []) rfl h
  unfold Triangulation.asLayer Triangulation.constraints Triangulation.startCdt
  rw [hpre]
  rw [← hset] at ho hr
  cases ha : t'.agentRadius with
  | none => rw [ha] at ho; simp [AgentRadius.settings] at ho
  | obstacles a b c => rw [ha] at ho; simp [AgentRadius.settings] at ho
  | everything a b c =>
    rw [ha] at hr
    simp only [AgentRadius.settings] at hr
    have hb : bigRadius a = true := hr
    simp only [hb, if_true]
    unfold GeoPolygon.inflate inflateOutline
    rw [hext]
    rfl

/-! ### A concrete case -/

/-- The square as layer 1 of a mesh; layer 0 is empty. -/
def squareMesh : Mesh Rat := Mesh.ofLayers [Layer.mk' [] [],
  Layer.mk' [⟨v2 0 0, [0, u32Max], true⟩, ⟨v2 4 0, [0, u32Max], true⟩, ⟨v2 4 4, [0, u32Max], true⟩, ⟨v2 0 4, [0, u32Max], true⟩]
    [⟨[0, 1, 2, 3], false⟩]]

/-- The library of the examples, with the same triangulation for all constraints. -/
def anyLib : TriLib Rat := { squareLib with triangulate := fun _ => .ok squareTri }

theorem anyLib_empty : anyLib.EmptyIsEmpty := by
  intro holes z
  rfl

/-- The square of layer 1 with half of it as an obstacle: the other half is left; and with the radius on the outer edge,
`as_layer` panics. -/
example : ∃ t t' l, Triangulation.fromMesh squareMesh 1 = .ok t ∧ runOps anyLib t [.prebuild, .addObstacle half] = .ok t' ∧
    t'.asLayer anyLib allBvh = .ok l ∧ l.polygons = [⟨[0, 2, 3], false⟩] ∧
    (∃ cdt, CdtJoined cdt (v2 4 0) (v2 4 4) ∧ ∃ kept, FacesOf anyLib l cdt kept) ∧
    Triangulation.fromMesh squareMesh 2 = .error .panic ∧
    (t'.asNavmesh anyLib allBvh = .ok (Mesh.ofLayers [l])) ∧
    ∃ u, runOps anyLib t [.setRadius 1, .setOuterEdge true] = .ok u ∧ u.asLayer anyLib allBvh = .error .panic := by
  obtain ⟨base, hbase⟩ : ∃ base, squareMesh.layers[(1 : UInt8).toNat]? = some base := ⟨_, rfl⟩
  have hm := (C68_from_mesh squareMesh 1).1 base hbase
  have hrun : runOps anyLib (Triangulation.fromMeshLayer base) [.prebuild, .addObstacle half] =
      .ok ((Triangulation.fromMeshLayer base).addObstacle half) := rfl
  have hdec : resIs (((Triangulation.fromMeshLayer (squareMesh.layers[1]'(by decide))).addObstacle half).asLayer anyLib allBvh)
      (fun l => decide (l.polygons = [⟨[0, 2, 3], false⟩])) = true := by decide +kernel
  have hb : base = squareMesh.layers[1]'(by decide) := by
    have : squareMesh.layers[(1 : UInt8).toNat]? = some (squareMesh.layers[1]'(by decide)) := rfl
    rw [this, Option.some.injEq] at hbase
    exact hbase.symm
  rw [← hb] at hdec
  obtain ⟨l, h1, h2⟩ := of_resIs hdec
  rw [decide_eq_true_eq] at h2
  have key := C68_base_layer rat_zeroIsSmall anyLib squareLib_nan squareLib_holes anyLib_empty allBvh squareMesh 1 _ _ hm _ hrun
    l h1
  obtain ⟨k0, base', hbase', cdt, d, kept, rings, k1, k2, k3, k4, k5, k6⟩ := key
  rw [hbase, Option.some.injEq] at hbase'
  subst hbase'
  refine ⟨_, _, l, hm, hrun, h1, h2, ⟨cdt, ?_, kept, k2⟩, (C68_from_mesh squareMesh 2).2 rfl, k0, ?_⟩
  · exact k4 ⟨[0, 1, 2, 3], false⟩ (by rw [hb]; exact List.mem_singleton.2 rfl) 1 2 ⟨1, by decide, rfl, rfl⟩ (by decide)
      ⟨v2 4 0, [0, u32Max], true⟩ ⟨v2 4 4, [0, u32Max], true⟩ (by rw [hb]; rfl) (by rw [hb]; rfl)
  · refine ⟨_, rfl, C68_outer_edge_panics anyLib allBvh base _ [.setRadius 1, .setOuterEdge true] rfl ?_ ?_⟩
    · decide +kernel
    · decide +kernel

end Polyanya
