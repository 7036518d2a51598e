import Verif.Props.TriangulationLayer
/-
C32, C33: the triangulation builder.
-/

namespace Polyanya

variable {K : Type} [Scalar K]

/-! ### Settings -/

theorem lastSettings_radius (ops : List (BuildOp K)) (r : K) :
    lastSettings (ops ++ [.setRadius r]) = { lastSettings ops with radius := r } := by
  simp [lastSettings]

theorem lastSettings_segments (ops : List (BuildOp K)) (s : UInt8) :
    lastSettings (ops ++ [.setSegments s]) = { lastSettings ops with segments := s } := by
  simp [lastSettings]

theorem lastSettings_simplification (ops : List (BuildOp K)) (e : K) :
    lastSettings (ops ++ [.setSimplification e]) = { lastSettings ops with simplification := e } := by
  simp [lastSettings]

theorem lastSettings_outerEdge (ops : List (BuildOp K)) (b : Bool) :
    lastSettings (ops ++ [.setOuterEdge b]) = { lastSettings ops with outerEdge := b } := by
  simp [lastSettings]

theorem lastSettings_other (ops : List (BuildOp K)) {o : BuildOp K} (h : o.isSetter = false) :
    lastSettings (ops ++ [o]) = lastSettings ops := by
  cases o <;> simp [BuildOp.isSetter] at h <;> simp [lastSettings]

/-- After any call, the settings are the last ones set. -/
theorem run_settings {lib : TriLib K} {t t' : Triangulation K} {o : BuildOp K} {before : List (BuildOp K)}
    (hs : t.agentRadius.settings = lastSettings before) (h : o.run lib t = .ok t') :
    t'.agentRadius.settings = lastSettings (before ++ [o]) := by
  cases o with
  | setRadius r =>
    rw [lastSettings_radius, ← hs]
    simp only [BuildOp.run, Except.ok.injEq] at h
    subst h
    cases h : t.agentRadius <;> simp [AgentRadius.setRadius, AgentRadius.settings]
  | setSegments s =>
    rw [lastSettings_segments, ← hs]
    simp only [BuildOp.run, Except.ok.injEq] at h
    subst h
    cases h : t.agentRadius <;> simp [AgentRadius.setSegments, AgentRadius.settings]
  | setSimplification e =>
    rw [lastSettings_simplification, ← hs]
    simp only [BuildOp.run, Except.ok.injEq] at h
    subst h
    cases h : t.agentRadius <;> simp [AgentRadius.setSimplification, AgentRadius.settings]
  | setOuterEdge b =>
    rw [lastSettings_outerEdge, ← hs]
    simp only [BuildOp.run, Except.ok.injEq] at h
    subst h
    cases h : t.agentRadius <;> cases b <;> simp [AgentRadius.setOuterEdge, AgentRadius.settings]
  | addObstacle r =>
    rw [lastSettings_other _ rfl, ← hs]
    simp only [BuildOp.run, Except.ok.injEq] at h
    subst h; rfl
  | addObstacles r =>
    rw [lastSettings_other _ rfl, ← hs]
    simp only [BuildOp.run, Except.ok.injEq] at h
    subst h; rfl
  | simplify r =>
    rw [lastSettings_other _ rfl, ← hs]
    simp only [BuildOp.run, Except.ok.injEq] at h
    subst h; rfl
  | prebuild =>
    rw [lastSettings_other _ rfl, ← hs]
    simp only [BuildOp.run, Triangulation.prebuild] at h
    split at h
    · rw [Except.ok.injEq] at h
      subst h; rfl
    · simp only [bind_eq_ok, Except.ok.injEq] at h
      obtain ⟨_, _, _, _, _, _, rfl⟩ := h
      rfl

theorem runOps_cons (lib : TriLib K) (t : Triangulation K) (o : BuildOp K) (ops : List (BuildOp K)) :
    runOps lib t (o :: ops) = o.run lib t >>= fun t' => runOps lib t' ops := by
  unfold runOps
  rw [List.foldlM_cons]

theorem runOps_append (lib : TriLib K) (t : Triangulation K) (a b : List (BuildOp K)) :
    runOps lib t (a ++ b) = runOps lib t a >>= fun t' => runOps lib t' b := by
  unfold runOps
  rw [List.foldlM_append]

theorem runOps_settings {lib : TriLib K} : ∀ {ops : List (BuildOp K)} {t t' : Triangulation K} {before : List (BuildOp K)},
    t.agentRadius.settings = lastSettings before → runOps lib t ops = .ok t' →
    t'.agentRadius.settings = lastSettings (before ++ ops)
  | [], t, t', before, hs, h => by
    simp only [runOps, List.foldlM_nil, res_pure, Except.ok.injEq] at h
    subst h
    rw [List.append_nil]; exact hs
  | o :: ops, t, t', before, hs, h => by
    rw [runOps_cons, bind_eq_ok] at h
    obtain ⟨t1, h1, h2⟩ := h
    have := runOps_settings (run_settings hs h1) h2
    rwa [List.append_assoc] at this

/-- The smallest radius that counts is above the default. -/
def ZeroIsSmall (K : Type) [Scalar K] : Prop := (Scalar.lit 1 5 <. (Scalar.lit 0 0 : K)) = false

/-- Builders that differ only in the representation of settings. -/
structure Same (t u : Triangulation K) : Prop where
  inner : t.inner = u.inner
  prebuilt : t.prebuilt = u.prebuilt
  baseLayer : t.baseLayer = u.baseLayer

theorem apply_settings (hz : ZeroIsSmall K) {a b : AgentRadius K} (h : a.settings = b.settings) (lib : TriLib K)
    (p : GeoPolygon K) : a.apply lib p = b.apply lib p := by
  have hz' : bigRadius (Scalar.lit 0 0 : K) = false := hz
  cases a <;> cases b <;> simp only [AgentRadius.settings, Settings.mk.injEq] at h <;>
    simp_all only [AgentRadius.apply, reduceCtorEq, and_false, and_true, Bool.false_eq_true, ↓reduceIte]

theorem startCdt_settings {t u : Triangulation K} (hs : Same t u)
    (h : t.agentRadius.settings = u.agentRadius.settings) (lib : TriLib K) : t.startCdt lib = u.startCdt lib := by
  unfold Triangulation.startCdt
  rw [hs.prebuilt, hs.inner]
  cases ht : t.agentRadius <;> cases hu : u.agentRadius <;> rw [ht, hu] at h <;>
    simp only [AgentRadius.settings, Settings.mk.injEq] at h <;> simp_all only [reduceCtorEq, and_false]

theorem asLayer_settings (hz : ZeroIsSmall K) {t u : Triangulation K} (hs : Same t u)
    (h : t.agentRadius.settings = u.agentRadius.settings) (lib : TriLib K) (bvh : Bvh K) :
    t.asLayer lib bvh = u.asLayer lib bvh := by
  have hk : t.keeps lib bvh = u.keeps lib bvh := by
    funext inner c
    unfold Triangulation.keeps Triangulation.inUsed
    rw [hs.prebuilt, hs.baseLayer]
  unfold Triangulation.asLayer Triangulation.constraints
  rw [startCdt_settings hs h lib, hs.baseLayer, apply_settings hz h, hs.inner, hk]

/-- Results that are the same up to the representation of settings: both fail in the same way, or succeed with `Same`
builders. -/
def SameRes : Res (Triangulation K) → Res (Triangulation K) → Prop
  | .ok t, .ok u => Same t u
  | .error e, .error e' => e = e'
  | _, _ => False

theorem run_same (hz : ZeroIsSmall K) {t u : Triangulation K} (hs : Same t u)
    (h : t.agentRadius.settings = u.agentRadius.settings) (lib : TriLib K) (o : BuildOp K) (ho : o.isSetter = false) :
    SameRes (o.run lib t) (o.run lib u) := by
  cases o <;> simp only [BuildOp.isSetter, Bool.true_eq_false] at ho
  · exact ⟨by simp only [Triangulation.addObstacle, hs.inner], hs.prebuilt, hs.baseLayer⟩
  · exact ⟨by simp only [Triangulation.addObstacles, hs.inner], hs.prebuilt, hs.baseLayer⟩
  · exact ⟨by simp only [Triangulation.simplify, hs.inner], hs.prebuilt, hs.baseLayer⟩
  · simp only [BuildOp.run, Triangulation.prebuild]
    rw [hs.baseLayer, apply_settings hz h, hs.inner, hs.prebuilt]
    split
    · exact hs
    · cases u.agentRadius.apply lib u.inner with
      | error e => rfl
      | ok inner =>
        rw [res_bind_ok, res_bind_ok]
        cases Cdt.addEdges lib [] inner.exterior with
        | error e => rfl
        | ok c =>
          rw [res_bind_ok, res_bind_ok]
          cases inner.interiors.foldlM (Cdt.addEdges lib) c with
          | error e => rfl
          | ok c =>
            rw [res_bind_ok, res_bind_ok]
            exact ⟨rfl, rfl, rfl⟩

theorem run_setter {lib : TriLib K} {t : Triangulation K} {o : BuildOp K} (ho : o.isSetter = true) :
    ∃ t', o.run lib t = .ok t' ∧ Same t' t := by
  cases o <;> simp only [BuildOp.isSetter, Bool.false_eq_true] at ho <;>
    exact ⟨_, rfl, rfl, rfl, rfl⟩

theorem Same.symm {t u : Triangulation K} (h : Same t u) : Same u t := ⟨h.1.symm, h.2.symm, h.3.symm⟩
theorem Same.trans {t u v : Triangulation K} (h : Same t u) (h' : Same u v) : Same t v :=
  ⟨h.1.trans h'.1, h.2.trans h'.2, h.3.trans h'.3⟩

/-- Histories with the same calls, at the same settings, give the same builder. -/
theorem runOps_seen (hz : ZeroIsSmall K) {lib : TriLib K} : ∀ (n : Nat) (ops ops' : List (BuildOp K))
    (before before' : List (BuildOp K)) (t u : Triangulation K), ops.length + ops'.length = n → Same t u →
    t.agentRadius.settings = lastSettings before → u.agentRadius.settings = lastSettings before' →
    seen before ops = seen before' ops' → SameRes (runOps lib t ops) (runOps lib u ops') := by
  intro n
  induction n using Nat.strongRecOn with
  | ind n ih =>
    intro ops ops' before before' t u hn hsame ht hu hseen
    -- skip setters on the left
    have skipL : ∀ o rest, ops = o :: rest → o.isSetter = true → SameRes (runOps lib t ops) (runOps lib u ops') := by
      intro o rest e ho
      subst e
      obtain ⟨t', h1, h2⟩ := run_setter (lib := lib) (t := t) ho
      rw [runOps_cons, h1, res_bind_ok]
      refine ih (rest.length + ops'.length) (by simp at hn; omega) rest ops' (before ++ [o]) before' t' u rfl
        (h2.trans hsame) (run_settings ht h1) hu ?_
      rw [← hseen, seen, if_pos ho, List.nil_append]
    have skipR : ∀ o rest, ops' = o :: rest → o.isSetter = true → SameRes (runOps lib t ops) (runOps lib u ops') := by
      intro o rest e ho
      subst e
      obtain ⟨u', h1, h2⟩ := run_setter (lib := lib) (t := u) ho
      rw [runOps_cons lib u, h1, res_bind_ok]
      refine ih (ops.length + rest.length) (by simp at hn; omega) ops rest before (before' ++ [o]) t u' rfl
        (hsame.trans h2.symm) ht (run_settings hu h1) ?_
      rw [hseen, seen, if_pos ho, List.nil_append]
    match hops : ops, hops' : ops' with
    | [], [] => exact hsame
    | o :: rest, [] =>
      by_cases ho : o.isSetter = true
      · exact skipL o rest rfl ho
      · rw [seen, seen, if_neg ho] at hseen
        simp at hseen
    | [], o :: rest =>
      by_cases ho : o.isSetter = true
      · exact skipR o rest rfl ho
      · rw [seen, seen, if_neg ho] at hseen
        simp at hseen
    | o :: rest, o' :: rest' =>
      by_cases ho : o.isSetter = true
      · exact skipL o rest rfl ho
      · by_cases ho' : o'.isSetter = true
        · exact skipR o' rest' rfl ho'
        · rw [seen, seen, if_neg ho, if_neg ho', List.singleton_append, List.singleton_append, List.cons.injEq,
            Prod.mk.injEq] at hseen
          obtain ⟨⟨rfl, hset⟩, hrest⟩ := hseen
          have hsr := run_same hz hsame (by rw [ht, hu, hset]) lib o (by simpa using ho)
          rw [runOps_cons, runOps_cons]
          cases h1 : o.run lib t with
          | error e =>
            cases h2 : o.run lib u with
            | error e' =>
              rw [h1, h2] at hsr
              exact hsr
            | ok u' =>
              rw [h1, h2] at hsr
              exact hsr.elim
          | ok t' =>
            cases h2 : o.run lib u with
            | error e' =>
              rw [h1, h2] at hsr
              exact hsr.elim
            | ok u' =>
              rw [h1, h2] at hsr
              rw [res_bind_ok, res_bind_ok]
              exact ih (rest.length + rest'.length) (by simp at hn; omega) rest rest' _ _ t' u' rfl hsr
                (run_settings ht h1) (run_settings hu h2) hrest

theorem started_fresh {t : Triangulation K} (h : Started t) : t.agentRadius = .none ∧ t.prebuilt = none := by
  cases h <;> exact ⟨rfl, rfl⟩

/-- **C32**: the settings of a new builder after any sequence of calls are the last values set (defaults 0, 5, 0,
false) — and nothing else about the calls that set them matters: two sequences with the same other calls, made at the same
settings, and the same settings at the end give the same layer. -/
theorem C32_settings (hz : ZeroIsSmall K) (lib : TriLib K) (bvh : Bvh K) (t : Triangulation K) (ht : Started t) :
    (∀ ops t', runOps lib t ops = .ok t' → t'.agentRadius.settings = lastSettings ops) ∧
    ∀ ops ops', seen [] ops = seen [] ops' → lastSettings ops = lastSettings ops' →
      (runOps lib t ops >>= fun b => b.asLayer lib bvh) = (runOps lib t ops' >>= fun b => b.asLayer lib bvh) := by
  have h0 : t.agentRadius.settings = lastSettings [] := by rw [(started_fresh ht).1]; rfl
  refine ⟨fun ops t' h => by simpa using runOps_settings h0 h, ?_⟩
  intro ops ops' hseen hlast
  have := runOps_seen hz (lib := lib) _ ops ops' [] [] t t rfl ⟨rfl, rfl, rfl⟩ h0 h0 hseen
  cases h1 : runOps lib t ops with
  | error e =>
    cases h2 : runOps lib t ops' with
    | error e' =>
      rw [h1, h2] at this
      have : e = e' := this
      rw [this]
    | ok u' =>
      rw [h1, h2] at this
      exact this.elim
  | ok t' =>
    cases h2 : runOps lib t ops' with
    | error e' =>
      rw [h1, h2] at this
      exact this.elim
    | ok u' =>
      rw [h1, h2] at this
      rw [res_bind_ok, res_bind_ok]
      refine asLayer_settings hz this ?_ lib bvh
      have e1 := runOps_settings h0 h1
      have e2 := runOps_settings h0 h2
      rw [List.nil_append] at e1 e2
      rw [e1, e2, hlast]

/-- Calls to different setters commute. -/
example (r : K) (s : UInt8) (e : K) (b : Bool) (edges : List (Vec2 K)) :
    seen [] [BuildOp.setRadius r, .setSegments s, .setSimplification e, .setOuterEdge b, .addObstacle edges] =
      seen [] [BuildOp.setOuterEdge b, .setSimplification e, .setSegments 7, .setRadius r, .setSegments s, .addObstacle edges] := rfl

/-! ### Constraint edges -/

/-- The points inserted. -/
def Cdt.points (c : Cdt K) : List (Vec2 K) := c.filterMap (fun o => match o with | .insert p => some p | _ => none)

theorem inserted_eq (c : Cdt K) : c.inserted = c.points.length := by
  unfold Cdt.inserted Cdt.points
  induction c with
  | nil => rfl
  | cons o c ih => cases o <;> simp_all

theorem points_append (a b : Cdt K) : Cdt.points (a ++ b) = Cdt.points a ++ Cdt.points b := by
  unfold Cdt.points
  rw [List.filterMap_append]

theorem constrained_mono {c c' : Cdt K} {a b : Vec2 K} (h : Constrained c a b) : Constrained (c ++ c') a b := by
  obtain ⟨i, j, h1, h2, h3⟩ := h
  refine ⟨i, j, List.mem_append_left _ h1, ?_, ?_⟩
  · rw [List.filterMap_append, List.getElem?_append_left (lt_of_getElem? h2)]; exact h2
  · rw [List.filterMap_append, List.getElem?_append_left (lt_of_getElem? h3)]; exact h3

theorem constrained_prefix {c c' : Cdt K} (hp : c <+: c') {a b : Vec2 K} (h : Constrained c a b) : Constrained c' a b := by
  obtain ⟨d, rfl⟩ := hp
  exact constrained_mono h

theorem add_ok {lib : TriLib K} {c : Cdt K} {p : Vec2 K} {r : Cdt K × Nat} (h : c.add lib p = .ok r) :
    lib.insertOk p = true ∧ r = (c ++ [.insert p], c.inserted) := by
  unfold Cdt.add at h
  split at h
  · rename_i hp
    rw [Except.ok.injEq] at h
    exact ⟨hp, h.symm⟩
  · simp at h

theorem addLine_ok {lib : TriLib K} {c c' : Cdt K} {line : Vec2 K × Vec2 K} (h : c.addLine lib line = .ok c') :
    c <+: c' ∧ Constrained c' line.1 line.2 ∧ lib.insertOk line.1 = true ∧ lib.insertOk line.2 = true := by
  unfold Cdt.addLine at h
  simp only [bind_eq_ok] at h
  obtain ⟨a, ha, b, hb, h⟩ := h
  obtain ⟨ha1, ha2⟩ := add_ok ha
  subst ha2
  obtain ⟨hb1, hb2⟩ := add_ok hb
  subst hb2
  rw [Except.ok.injEq] at h
  subst h
  simp only
  refine ⟨⟨[.insert line.1] ++ [.insert line.2] ++ [.constrain c.inserted (Cdt.inserted (c ++ [.insert line.1]))],
    by simp only [List.append_assoc]⟩, ⟨c.inserted, Cdt.inserted (c ++ [.insert line.1]), by simp, ?_, ?_⟩, ha1, hb1⟩
  · show (Cdt.points _)[_]? = _
    rw [inserted_eq]
    simp [points_append, Cdt.points]
  · show (Cdt.points _)[_]? = _
    rw [inserted_eq (c ++ [CdtOp.insert line.1])]
    simp [points_append, Cdt.points]

theorem addEdges_ok {lib : TriLib K} {c c' : Cdt K} {r : LineString K} (h : c.addEdges lib r = .ok c') :
    c <+: c' ∧ ∀ a b, (a, b) ∈ windows2 r → Constrained c' a b ∧ lib.insertOk a = true ∧ lib.insertOk b = true := by
  unfold Cdt.addEdges at h
  generalize windows2 r = w at h
  induction w generalizing c with
  | nil =>
    simp only [List.foldlM_nil, res_pure, Except.ok.injEq] at h
    subst h
    exact ⟨List.prefix_refl _, by simp⟩
  | cons e w ih =>
    rw [List.foldlM_cons, bind_eq_ok] at h
    obtain ⟨c1, h1, h2⟩ := h
    obtain ⟨p1, k1, k2⟩ := addLine_ok h1
    obtain ⟨p2, k3⟩ := ih h2
    refine ⟨p1.trans p2, ?_⟩
    intro a b hab
    rcases List.mem_cons.1 hab with rfl | hab
    · exact ⟨constrained_prefix p2 k1, k2⟩
    · exact k3 a b hab

theorem addRings_ok {lib : TriLib K} : ∀ {rs : List (LineString K)} {c c' : Cdt K}, rs.foldlM (Cdt.addEdges lib) c = .ok c' →
    c <+: c' ∧ ∀ r ∈ rs, ∀ a b, (a, b) ∈ windows2 r → Constrained c' a b ∧ lib.insertOk a = true ∧ lib.insertOk b = true
  | [], c, c', h => by
    simp only [List.foldlM_nil, res_pure, Except.ok.injEq] at h
    subst h
    exact ⟨List.prefix_refl _, by simp⟩
  | r :: rs, c, c', h => by
    rw [List.foldlM_cons, bind_eq_ok] at h
    obtain ⟨c1, h1, h2⟩ := h
    obtain ⟨p1, k1⟩ := addEdges_ok h1
    obtain ⟨p2, k2⟩ := addRings_ok h2
    refine ⟨p1.trans p2, ?_⟩
    intro r' hr' a b hab
    rcases List.mem_cons.1 hr' with rfl | hr'
    · exact ⟨constrained_prefix p2 (k1 a b hab).1, (k1 a b hab).2⟩
    · exact k2 r' hr' a b hab

/-! ### Closed rings -/

/-- The ring is the result of closing some list of points. -/
def WasClosed (r : LineString K) : Prop := ∃ x, r = LineString.close x

theorem close_fixed {lib : TriLib K} (hnan : lib.RefusesNan) {r : LineString K} (hr : WasClosed r)
    (h : ∀ a b, (a, b) ∈ windows2 r → lib.insertOk a = true) : LineString.close r = r := by
  obtain ⟨x, rfl⟩ := hr
  by_cases hx : LineString.isClosed x = true
  · have : LineString.close x = x := by unfold LineString.close; rw [if_pos hx]
    rw [this, this]
  · have e : LineString.close x = x ++ (x.head?).toList := by unfold LineString.close; rw [if_neg hx]
    rw [e] at h ⊢
    cases x with
    | nil => rfl
    | cons a x =>
      have hok : lib.insertOk a = true := by
        cases x with
        | nil => exact h a a (by simp [windows2])
        | cons b x => exact h a b (by simp [windows2])
      have hb := hnan a hok
      unfold LineString.close
      rw [if_pos]
      unfold LineString.isClosed
      simp only [List.cons_append, List.head?_cons, Option.toList_some]
      rw [← List.cons_append, List.getLast?_append]
      simpa using hb

/-! ### Growing -/

theorem inflateObstacles_grown {lib : TriLib K} {p p' : GeoPolygon K} {d e : K} {n : UInt8}
    (h : p.inflateObstacles lib d n.toNat e = .ok p') :
    p'.exterior = LineString.close p.exterior ∧ (∀ r' ∈ p'.interiors, WasClosed r') ∧
    ∀ r ∈ p.interiors, ∃ r' ∈ p'.interiors, ∃ outline holes, inflateOutline lib r d n.toNat = .ok (outline, holes) ∧
      r' = LineString.close (lib.simplifyVw outline e) := by
  unfold GeoPolygon.inflateObstacles at h
  simp only [bind_eq_ok] at h
  obtain ⟨rings, h1, h2⟩ := h
  rw [Except.ok.injEq] at h2
  subst h2
  refine ⟨rfl, ?_, ?_⟩
  · intro r' hr'
    simp only [GeoPolygon.new, List.mem_map] at hr'
    obtain ⟨x, -, rfl⟩ := hr'
    exact ⟨x, rfl⟩
  · intro r hr
    rw [mapM_ok_iff] at h1
    obtain ⟨i, hi, rfl⟩ := List.getElem_of_mem hr
    have hi' : i < rings.length := by rw [← h1.length_eq]; exact hi
    have hget := h1.get hi hi'
    simp only [List.get_eq_getElem, bind_eq_ok, Except.ok.injEq] at hget
    obtain ⟨o, ho, he⟩ := hget
    refine ⟨LineString.close rings[i], ?_, o.1, o.2, ho, by rw [he]⟩
    simp only [GeoPolygon.new, List.mem_map]
    exact ⟨_, List.getElem_mem hi', rfl⟩

theorem apply_grown (hz : ZeroIsSmall K) {lib : TriLib K} {a : AgentRadius K} {p p' : GeoPolygon K}
    (hc : ∀ r ∈ p.interiors, WasClosed r) (h : a.apply lib p = .ok p') :
    (∀ r' ∈ p'.interiors, WasClosed r') ∧ ∀ r ∈ p.interiors, ∃ r' ∈ p'.interiors, Grown lib a.settings r r' := by
  have hz' : ¬ (Scalar.lit 1 5 <. (Scalar.lit 0 0 : K)) = true := by
    have : (Scalar.lit 1 5 <. (Scalar.lit 0 0 : K)) = false := hz
    rw [this]; simp
  cases a with
  | none =>
    simp only [AgentRadius.apply, Except.ok.injEq] at h
    subst h
    refine ⟨hc, fun r hr => ⟨r, hr, ?_⟩⟩
    unfold Grown
    rw [if_neg (by exact hz')]
  | obstacles d n e =>
    simp only [AgentRadius.apply] at h
    split at h
    · rename_i hb
      obtain ⟨-, h2, h3⟩ := inflateObstacles_grown h
      refine ⟨h2, fun r hr => ?_⟩
      obtain ⟨r', hr', h4⟩ := h3 r hr
      refine ⟨r', hr', ?_⟩
      unfold Grown
      rw [if_pos (by exact hb)]
      exact h4
    · rename_i hb
      rw [Except.ok.injEq] at h
      subst h
      refine ⟨hc, fun r hr => ⟨r, hr, ?_⟩⟩
      unfold Grown
      rw [if_neg (by exact hb)]
  | everything d n e =>
    simp only [AgentRadius.apply] at h
    split at h
    · rename_i hb
      unfold GeoPolygon.inflate at h
      simp only [bind_eq_ok] at h
      obtain ⟨o, -, obs, ho, hole, -, h⟩ := h
      rw [Except.ok.injEq] at h
      subst h
      obtain ⟨-, h2, h3⟩ := inflateObstacles_grown ho
      refine ⟨h2, fun r hr => ?_⟩
      obtain ⟨r', hr', h4⟩ := h3 r hr
      refine ⟨r', hr', ?_⟩
      unfold Grown
      rw [if_pos (by exact hb)]
      exact h4
    · rename_i hb
      rw [Except.ok.injEq] at h
      subst h
      refine ⟨hc, fun r hr => ⟨r, hr, ?_⟩⟩
      unfold Grown
      rw [if_neg (by exact hb)]

/-! ### Histories -/

/-- Invariant of builders. -/
structure BuilderInv (t : Triangulation K) : Prop where
  closed : ∀ r ∈ t.inner.interiors, WasClosed r
  base : t.baseLayer.isSome = true → t.prebuilt = none
  /-- closing rings already used changes nothing -/
  used : ∀ u c, t.prebuilt = some (u, c) → ∀ r ∈ u.interiors, LineString.close r = r

theorem started_inv {t : Triangulation K} (h : Started t) : BuilderInv t := by
  refine ⟨?_, fun _ => (started_fresh h).2, fun u c e => by rw [(started_fresh h).2] at e; simp at e⟩
  cases h with
  | outerEdges e => simp [Triangulation.fromOuterEdges, GeoPolygon.new]
  | geoPolygon e hs =>
    intro r hr
    simp only [Triangulation.fromGeoPolygon, GeoPolygon.new, List.mem_map] at hr
    obtain ⟨x, -, rfl⟩ := hr
    exact ⟨x, rfl⟩
  | meshLayer l => simp [Triangulation.fromMeshLayer, GeoPolygon.new]

theorem foldl_push_interiors (l : List (LineString K)) (p : GeoPolygon K) :
    (l.foldl GeoPolygon.push p).interiors = p.interiors ++ l.map LineString.close := by
  induction l generalizing p with
  | nil => simp
  | cons r l ih => rw [List.foldl_cons, ih]; simp [GeoPolygon.push]

/-- What `prebuild` does without base layer. -/
theorem prebuild_spec (hz : ZeroIsSmall K) {lib : TriLib K} (hnan : lib.RefusesNan) {t t' : Triangulation K} (ht : BuilderInv t)
    (hb : t.baseLayer = none) (h : t.prebuild lib = .ok t') :
    t'.baseLayer = none ∧ t'.inner.interiors = [] ∧ ∃ used cdt, t'.prebuilt = some (used, cdt) ∧
      (∀ r ∈ t.inner.interiors, ∃ r' ∈ used.interiors, Grown lib t.agentRadius.settings r r' ∧
        ∀ a b, (a, b) ∈ windows2 r' → Constrained cdt a b) ∧
      (∀ u c, t.prebuilt = some (u, c) → ∀ r ∈ u.interiors, r ∈ used.interiors) ∧
      ∀ r ∈ used.interiors, LineString.close r = r := by
  unfold Triangulation.prebuild at h
  rw [hb] at h
  simp only [Option.isSome_none, Bool.false_eq_true, ↓reduceIte, bind_eq_ok] at h
  obtain ⟨inner, h1, c1, h2, c2, h3, h4⟩ := h
  obtain ⟨k1, k2⟩ := apply_grown hz ht.closed h1
  obtain ⟨p2, k3⟩ := addRings_ok h3
  have hfix : ∀ r ∈ inner.interiors, LineString.close r = r := fun r hr =>
    close_fixed hnan (k1 r hr) (fun a b hab => (k3 r hr a b hab).2.1)
  rw [Except.ok.injEq] at h4
  subst h4
  refine ⟨rfl, rfl, _, _, rfl, ?_, ?_, ?_⟩
  · intro r hr
    obtain ⟨r', hr', hg⟩ := k2 r hr
    refine ⟨r', ?_, hg, fun a b hab => (k3 r' hr' a b hab).1⟩
    cases hp : t.prebuilt with
    | none => exact hr'
    | some uc =>
      simp only
      rw [foldl_push_interiors]
      exact List.mem_append_left _ hr'
  · intro u c e r hr
    simp only [e]
    rw [foldl_push_interiors]
    refine List.mem_append_right _ (List.mem_map.2 ⟨r, hr, ht.used u c e r hr⟩)
  · cases hp : t.prebuilt with
    | none => exact hfix
    | some uc =>
      simp only
      rw [foldl_push_interiors]
      intro r hr
      rcases List.mem_append.1 hr with hr | hr
      · exact hfix r hr
      · obtain ⟨x, hx, rfl⟩ := List.mem_map.1 hr
        rw [ht.used uc.1 uc.2 hp x hx, ht.used uc.1 uc.2 hp x hx]

theorem prebuild_base {lib : TriLib K} {t t' : Triangulation K} (hb : t.baseLayer.isSome = true)
    (h : t.prebuild lib = .ok t') : t' = t := by
  unfold Triangulation.prebuild at h
  rw [if_pos hb, Except.ok.injEq] at h
  exact h.symm

theorem run_inv (hz : ZeroIsSmall K) {lib : TriLib K} (hnan : lib.RefusesNan) {t t' : Triangulation K} (ht : BuilderInv t)
    {o : BuildOp K} (h : o.run lib t = .ok t') : BuilderInv t' ∧ t'.baseLayer = t.baseLayer := by
  cases o with
  | setRadius r =>
    simp only [BuildOp.run, Except.ok.injEq] at h
    subst h
    exact ⟨⟨ht.closed, ht.base, ht.used⟩, rfl⟩
  | setSegments r =>
    simp only [BuildOp.run, Except.ok.injEq] at h
    subst h
    exact ⟨⟨ht.closed, ht.base, ht.used⟩, rfl⟩
  | setSimplification r =>
    simp only [BuildOp.run, Except.ok.injEq] at h
    subst h
    exact ⟨⟨ht.closed, ht.base, ht.used⟩, rfl⟩
  | setOuterEdge r =>
    simp only [BuildOp.run, Except.ok.injEq] at h
    subst h
    exact ⟨⟨ht.closed, ht.base, ht.used⟩, rfl⟩
  | addObstacle r =>
    simp only [BuildOp.run, Except.ok.injEq] at h
    subst h
    refine ⟨⟨?_, ht.base, ht.used⟩, rfl⟩
    intro x hx
    rcases List.mem_append.1 hx with hx | hx
    · exact ht.closed x hx
    · rw [List.mem_singleton] at hx
      exact ⟨r, hx⟩
  | addObstacles rs =>
    simp only [BuildOp.run, Except.ok.injEq] at h
    subst h
    refine ⟨⟨?_, ht.base, ht.used⟩, rfl⟩
    intro x hx
    obtain ⟨y, -, rfl⟩ := List.mem_map.1 hx
    exact ⟨y, rfl⟩
  | simplify e =>
    simp only [BuildOp.run, Except.ok.injEq] at h
    subst h
    refine ⟨⟨?_, ht.base, ht.used⟩, rfl⟩
    intro x hx
    obtain ⟨y, -, rfl⟩ := List.mem_map.1 hx
    exact ⟨_, rfl⟩
  | prebuild =>
    simp only [BuildOp.run] at h
    by_cases hb : t.baseLayer.isSome = true
    · have := prebuild_base hb h
      subst this
      exact ⟨ht, rfl⟩
    · have hb : t.baseLayer = none := by simpa using hb
      obtain ⟨h1, h2, u, c, h3, -, -, h6⟩ := prebuild_spec hz hnan ht hb h
      refine ⟨⟨by rw [h2]; simp, by rw [h1]; simp, ?_⟩, by rw [h1, hb]⟩
      intro u' c' e
      rw [h3, Option.some.injEq, Prod.mk.injEq] at e
      rw [← e.1]
      exact h6

theorem runOps_inv (hz : ZeroIsSmall K) {lib : TriLib K} (hnan : lib.RefusesNan) {ops : List (BuildOp K)}
    {t t' : Triangulation K} (ht : BuilderInv t) (h : runOps lib t ops = .ok t') :
    BuilderInv t' ∧ t'.baseLayer = t.baseLayer := by
  refine foldlM_inv (P := fun s => BuilderInv s ∧ s.baseLayer = t.baseLayer) ⟨ht, rfl⟩ ?_ h
  intro s o s' _ hs h
  obtain ⟨h1, h2⟩ := run_inv hz hnan hs.1 h
  exact ⟨h1, h2.trans hs.2⟩

/-- Rings already used stay. -/
theorem used_kept (hz : ZeroIsSmall K) {lib : TriLib K} (hnan : lib.RefusesNan) : ∀ {ops : List (BuildOp K)} {t t' : Triangulation K},
    BuilderInv t → runOps lib t ops = .ok t' → ∀ {u c r}, t.prebuilt = some (u, c) → r ∈ u.interiors →
    ∃ u' c', t'.prebuilt = some (u', c') ∧ r ∈ u'.interiors ∧ (ops.filter BuildOp.isPrebuild = [] → c' = c)
  | [], t, t', _, h, u, c, r, hp, hr => by
    simp only [runOps, List.foldlM_nil, res_pure, Except.ok.injEq] at h
    subst h
    exact ⟨u, c, hp, hr, fun _ => rfl⟩
  | o :: ops, t, t', ht, h, u, c, r, hp, hr => by
    rw [runOps_cons, bind_eq_ok] at h
    obtain ⟨t1, h1, h2⟩ := h
    have ht1 := (run_inv hz hnan ht h1).1
    by_cases ho : o.isPrebuild = true
    · cases o <;> simp only [BuildOp.isPrebuild, Bool.false_eq_true] at ho
      have hb : t.baseLayer = none := by
        cases hb : t.baseLayer with
        | none => rfl
        | some l =>
          have := ht.base (by rw [hb]; rfl)
          rw [hp] at this
          simp at this
      obtain ⟨-, -, u1, c1, k1, -, k2, -⟩ := prebuild_spec hz hnan ht hb h1
      obtain ⟨u', c', k3, k4, -⟩ := used_kept hz hnan ht1 h2 k1 (k2 u c hp r hr)
      refine ⟨u', c', k3, k4, ?_⟩
      intro h
      simp [BuildOp.isPrebuild] at h
    · have hsame : t1.prebuilt = t.prebuilt := by
        cases o <;> simp only [BuildOp.isPrebuild, not_true] at ho <;>
          simp only [BuildOp.run, Except.ok.injEq] at h1 <;> subst h1 <;> rfl
      obtain ⟨u', c', k3, k4, k5⟩ := used_kept hz hnan ht1 h2 (hsame.trans hp) hr
      refine ⟨u', c', k3, k4, ?_⟩
      intro h
      rw [List.filter_cons_of_neg ho] at h
      exact k5 h

/-- What becomes of a ring of the builder. -/
theorem ring_fate (hz : ZeroIsSmall K) {lib : TriLib K} (hnan : lib.RefusesNan) : ∀ {ops : List (BuildOp K)} {t t' : Triangulation K}
    {before : List (BuildOp K)} {r : LineString K}, BuilderInv t → t.agentRadius.settings = lastSettings before →
    runOps lib t ops = .ok t' → r ∈ t.inner.interiors →
    (∃ r' ∈ t'.inner.interiors, ∀ r'', Grown lib (lastSettings (before ++ ops)) r' r'' →
      BecomesOutline lib t.baseLayer.isSome before ops r r'') ∨
    (∃ r' u c, t'.prebuilt = some (u, c) ∧ r' ∈ u.interiors ∧ BecomesOutline lib t.baseLayer.isSome before ops r r' ∧
      ((ops.filter BuildOp.isPrebuild).length ≤ 1 → ∀ a b, (a, b) ∈ windows2 r' → Constrained c a b))
  | [], t, t', before, r, ht, hs, h, hr => by
    simp only [runOps, List.foldlM_nil, res_pure, Except.ok.injEq] at h
    subst h
    exact .inl ⟨r, hr, fun r'' h => by rw [List.append_nil] at h; exact h⟩
  | o :: ops, t, t', before, r, ht, hs, h, hr => by
    rw [runOps_cons, bind_eq_ok] at h
    obtain ⟨t1, h1, h2⟩ := h
    obtain ⟨ht1, hb1⟩ := run_inv hz hnan ht h1
    have hs1 := run_settings hs h1
    -- the ring after a call that is no effective `prebuild`
    have go : ∀ r1, r1 ∈ t1.inner.interiors →
        (∀ r'', BecomesOutline lib t.baseLayer.isSome (before ++ [o]) ops r1 r'' →
          BecomesOutline lib t.baseLayer.isSome before (o :: ops) r r'') →
        (o.isPrebuild = false ∨ t.baseLayer.isSome = true) →
        (∃ r' ∈ t'.inner.interiors, ∀ r'', Grown lib (lastSettings (before ++ o :: ops)) r' r'' →
          BecomesOutline lib t.baseLayer.isSome before (o :: ops) r r'') ∨
        (∃ r' u c, t'.prebuilt = some (u, c) ∧ r' ∈ u.interiors ∧ BecomesOutline lib t.baseLayer.isSome before (o :: ops) r r' ∧
          (((o :: ops).filter BuildOp.isPrebuild).length ≤ 1 → ∀ a b, (a, b) ∈ windows2 r' → Constrained c a b)) := by
      intro r1 hr1 hbec hpre
      rcases ring_fate hz hnan ht1 hs1 h2 hr1 with ⟨r', hr', k⟩ | ⟨r', u, c, k1, k2, k3, k4⟩
      · refine .inl ⟨r', hr', fun r'' hg => hbec r'' ?_⟩
        rw [← hb1]
        exact k r'' (by rw [List.append_assoc]; exact hg)
      · rw [hb1] at k3
        refine .inr ⟨r', u, c, k1, k2, hbec r' k3, fun hle => k4 ?_⟩
        rcases hpre with hpre | hpre
        · rw [List.filter_cons_of_neg (by simp [hpre])] at hle
          exact hle
        · have := (runOps_inv hz hnan ht1 h2).1.base (by rw [(runOps_inv hz hnan ht1 h2).2, hb1]; exact hpre)
          rw [k1] at this
          simp at this
    cases o with
    | setRadius x =>
      refine go r ?_ (fun r'' hr'' => hr'') (.inl rfl)
      simp only [BuildOp.run, Except.ok.injEq] at h1
      subst h1; exact hr
    | setSegments x =>
      refine go r ?_ (fun r'' hr'' => hr'') (.inl rfl)
      simp only [BuildOp.run, Except.ok.injEq] at h1
      subst h1; exact hr
    | setSimplification x =>
      refine go r ?_ (fun r'' hr'' => hr'') (.inl rfl)
      simp only [BuildOp.run, Except.ok.injEq] at h1
      subst h1; exact hr
    | setOuterEdge x =>
      refine go r ?_ (fun r'' hr'' => hr'') (.inl rfl)
      simp only [BuildOp.run, Except.ok.injEq] at h1
      subst h1; exact hr
    | addObstacle x =>
      refine go r ?_ (fun r'' hr'' => hr'') (.inl rfl)
      simp only [BuildOp.run, Except.ok.injEq] at h1
      subst h1
      exact List.mem_append_left _ hr
    | addObstacles x =>
      refine go (LineString.close r) ?_ (fun r'' hr'' => hr'') (.inl rfl)
      simp only [BuildOp.run, Except.ok.injEq] at h1
      subst h1
      exact List.mem_map.2 ⟨r, List.mem_append_left _ hr, rfl⟩
    | simplify e =>
      refine go (LineString.close (lib.simplifyVw r e)) ?_ (fun r'' hr'' => hr'') (.inl rfl)
      simp only [BuildOp.run, Except.ok.injEq] at h1
      subst h1
      exact List.mem_map.2 ⟨r, hr, rfl⟩
    | prebuild =>
      simp only [BuildOp.run] at h1
      by_cases hb : t.baseLayer.isSome = true
      · have := prebuild_base hb h1
        subst this
        refine go r hr (fun r'' hr'' => ?_) (.inr hb)
        unfold BecomesOutline
        rw [if_pos hb]
        exact hr''
      · have hb' : t.baseLayer = none := by simpa using hb
        obtain ⟨-, -, u1, c1, k1, k2, -⟩ := prebuild_spec hz hnan ht hb' h1
        obtain ⟨r', k3, k4, k5⟩ := k2 r hr
        obtain ⟨u', c', k6, k7, k8⟩ := used_kept hz hnan ht1 h2 k1 k3
        refine .inr ⟨r', u', c', k6, k7, ?_, ?_⟩
        · unfold BecomesOutline
          rw [if_neg hb, ← hs]
          exact k4
        · intro hle
          rw [List.filter_cons_of_pos rfl, List.length_cons] at hle
          have : ops.filter BuildOp.isPrebuild = [] := List.eq_nil_of_length_eq_zero (by omega)
          rw [k8 this]
          exact k5

/-- A call that adds an obstacle puts its closed outline in the builder. -/
theorem adds_mem {lib : TriLib K} {t t' : Triangulation K} {o : BuildOp K} {edges : List (Vec2 K)} (ho : o.Adds edges)
    (h : o.run lib t = .ok t') : LineString.close edges ∈ t'.inner.interiors := by
  rcases ho with rfl | ⟨all, rfl, hm⟩
  · simp only [BuildOp.run, Except.ok.injEq] at h
    subst h
    exact List.mem_append_right _ (by simp)
  · simp only [BuildOp.run, Except.ok.injEq] at h
    subst h
    exact List.mem_map.2 ⟨edges, List.mem_append_right _ hm, rfl⟩

theorem addBaseLayer_prefix {lib : TriLib K} {l : Layer K} {c c' : Cdt K} (h : addBaseLayer lib l c = .ok c') : c <+: c' := by
  unfold addBaseLayer at h
  simp only [bind_eq_ok, Except.ok.injEq] at h
  obtain ⟨s, h, rfl⟩ := h
  have hv : ∀ (s : List (UInt32 × Nat) × Cdt K) v r, baseVertex lib l s v = .ok r → s.2 <+: r.1.2 := by
    intro s v r h
    unfold baseVertex at h
    split at h
    · rw [Except.ok.injEq] at h
      subst h; exact List.prefix_refl _
    · simp only [bind_eq_ok, Except.ok.injEq] at h
      obtain ⟨vx, -, a, ha, rfl⟩ := h
      obtain ⟨-, e⟩ := add_ok ha
      subst e
      exact List.prefix_append _ _
  refine foldlM_inv (P := fun (s : BaseState K) => c <+: s.2.2) (List.prefix_refl _) ?_ h
  intro s p s' _ hs h
  simp only [bind_eq_ok] at h
  obtain ⟨es, -, h⟩ := h
  refine foldlM_inv (P := fun (s : BaseState K) => c <+: s.2.2) hs ?_ h
  intro s e s' _ hs h
  unfold baseEdge at h
  split at h
  · rw [Except.ok.injEq] at h
    subst h; exact hs
  · simp only at h
    split at h
    · rw [Except.ok.injEq] at h
      subst h; exact hs
    · simp only [bind_eq_ok, Except.ok.injEq] at h
      obtain ⟨r0, h0, r1, h1, rfl⟩ := h
      exact ((hs.trans (hv _ _ _ h0)).trans (hv _ _ _ h1)).trans (List.prefix_append _ _)

theorem obstacle_fate (hz : ZeroIsSmall K) {lib : TriLib K} (hnan : lib.RefusesNan) {t t' : Triangulation K} (ht : Started t)
    {ops : List (BuildOp K)} (h : runOps lib t ops = .ok t') {before rest : List (BuildOp K)} {edges : List (Vec2 K)}
    (ho : HasObstacle t ops before rest edges) :
    (∃ r' ∈ t'.inner.interiors, ∀ r'', Grown lib (lastSettings ops) r' r'' →
      BecomesOutline lib t.baseLayer.isSome before rest (LineString.close edges) r'') ∨
    (∃ r' u c, t'.prebuilt = some (u, c) ∧ r' ∈ u.interiors ∧
      BecomesOutline lib t.baseLayer.isSome before rest (LineString.close edges) r' ∧
      ((rest.filter BuildOp.isPrebuild).length ≤ 1 → ∀ a b, (a, b) ∈ windows2 r' → Constrained c a b)) := by
  have h0 : t.agentRadius.settings = lastSettings [] := by rw [(started_fresh ht).1]; rfl
  cases ho with
  | initial e hm =>
    have := ring_fate hz hnan (r := LineString.close edges) (started_inv ht) h0 h (by
      subst e
      exact List.mem_map.2 ⟨edges, hm, rfl⟩)
    simpa using this
  | added e hadd =>
    rename_i a o
    subst e
    rw [show a ++ o :: rest = (a ++ [o]) ++ rest by simp, runOps_append, bind_eq_ok] at h
    obtain ⟨t1, h1, h2⟩ := h
    obtain ⟨hi1, hb1⟩ := runOps_inv hz hnan (started_inv ht) h1
    have hs1 := runOps_settings h0 h1
    rw [List.nil_append] at hs1
    have hmem : LineString.close edges ∈ t1.inner.interiors := by
      rw [runOps_append, bind_eq_ok] at h1
      obtain ⟨t2, -, h3⟩ := h1
      rw [runOps_cons, bind_eq_ok] at h3
      obtain ⟨t3, h3, h4⟩ := h3
      simp only [runOps, List.foldlM_nil, res_pure, Except.ok.injEq] at h4
      subst h4
      exact adds_mem hadd h3
    have := ring_fate hz hnan hi1 hs1 h2 hmem
    rw [hb1] at this
    simpa using this

/-- **C33**, as far as it holds: after any sequence of calls, the layer is made of faces of a triangulation, of which none
has its center inside the outline of an obstacle (grown by the agent radius); and the edges of this outline are
constraint edges of the triangulation if `prebuild` was called at most once since the obstacle was added (or if the builder
started from a layer, where `prebuild` has no effect).

Missing from C33: without the condition on `prebuild`, the edges need not be constraint edges (`C33_false`). -/
theorem C33_obstacles_partial (hz : ZeroIsSmall K) (lib : TriLib K) (hnan : lib.RefusesNan) (hholes : lib.HolesExcluded)
    (bvh : Bvh K) (t t' : Triangulation K) (ht : Started t) (ops : List (BuildOp K)) (h : runOps lib t ops = .ok t')
    (l : Layer K) (hl : t'.asLayer lib bvh = .ok l) :
    ∃ cdt kept, FacesOf lib l cdt kept ∧
      ∀ before rest edges, HasObstacle t ops before rest edges →
        ∃ outline, BecomesOutline lib t.baseLayer.isSome before rest (LineString.close edges) outline ∧
          (∀ f ∈ kept, lib.contains ⟨outline, []⟩ f.center = false) ∧
          ((t.baseLayer.isSome = true ∨ (rest.filter BuildOp.isPrebuild).length ≤ 1) →
            ∀ a b, (a, b) ∈ outline.zip outline.tail → Constrained cdt a b) := by
  obtain ⟨hi, hb⟩ := runOps_inv hz hnan (started_inv ht) h
  have hset : t'.agentRadius.settings = lastSettings ops := by
    simpa using runOps_settings (before := []) (by rw [(started_fresh ht).1]; rfl) h
  unfold Triangulation.asLayer at hl
  rw [bind_eq_ok] at hl
  obtain ⟨⟨inner, cdt⟩, hc, hl⟩ := hl
  rw [bind_eq_ok] at hl
  obtain ⟨d, hd, hl⟩ := hl
  simp only at hd hl
  unfold TriData.toLayer at hl
  simp only [bind_eq_ok] at hl
  obtain ⟨kept, hk, map, -, vs, -, hl⟩ := hl
  rw [Except.ok.injEq] at hl
  subst hl
  have hk' := keptFaces_eq hk
  refine ⟨cdt, kept, ⟨d, hd, by rw [hk']; exact List.filter_sublist, rfl⟩, ?_⟩
  -- the constraints
  unfold Triangulation.constraints at hc
  simp only [bind_eq_ok, Except.ok.injEq, Prod.mk.injEq] at hc
  obtain ⟨c1, hc1, c2, hc2, inner', hc3, c3, hc4, rfl, rfl⟩ := hc
  obtain ⟨k1, k2⟩ := apply_grown hz hi.closed hc3
  obtain ⟨p3, k3⟩ := addRings_ok hc4
  have hfix : ∀ r ∈ inner'.interiors, LineString.close r = r := fun r hr =>
    close_fixed hnan (k1 r hr) (fun a b hab => (k3 r hr a b hab).2.1)
  have p2 : c1 <+: c2 := by
    unfold addBase at hc2
    split at hc2
    · rw [Except.ok.injEq] at hc2
      rw [hc2]
    · exact addBaseLayer_prefix hc2
  -- faces that are kept
  have hkeep : ∀ f ∈ kept, (∀ r ∈ inner'.interiors, lib.contains ⟨r, []⟩ f.center = false) ∧
      ∀ u c, t'.prebuilt = some (u, c) → ∀ r ∈ u.interiors, lib.contains ⟨r, []⟩ f.center = false := by
    intro f hf
    rw [hk', List.mem_filter] at hf
    have hf := hf.2
    rw [decide_eq_true_eq] at hf
    unfold Triangulation.keeps at hf
    split at hf
    · rename_i hin
      rw [Bool.and_eq_true] at hin
      refine ⟨hholes _ _ hin.2, ?_⟩
      intro u c e
      have hin := hin.1
      unfold Triangulation.inUsed at hin
      rw [e] at hin
      exact hholes _ _ hin
    · split at hf
      · simp at hf
      · rename_i l hbase
        have hnone := hi.base (by rw [hbase]; rfl)
        refine ⟨?_, fun u c e => by rw [hnone] at e; simp at e⟩
        rw [bind_eq_ok] at hf
        obtain ⟨loc, -, hf⟩ := hf
        rw [Except.ok.injEq, Bool.and_eq_true] at hf
        have hf := hf.2
        intro r hr
        by_contra hcon
        have : inner'.interiors.any (fun o => lib.contains (GeoPolygon.new o []) f.center) = true := by
          rw [List.any_eq_true]
          refine ⟨r, hr, ?_⟩
          unfold GeoPolygon.new
          rw [hfix r hr]
          simpa using hcon
        rw [this] at hf
        simp at hf
  intro before rest edges ho
  rcases obstacle_fate hz hnan ht h ho with ⟨r, hr, hbec⟩ | ⟨r, u, c, hp, hr, hbec, hcon⟩
  · obtain ⟨r', hr', hg⟩ := k2 r hr
    rw [hset] at hg
    exact ⟨r', hbec r' hg, fun f hf => (hkeep f hf).1 r' hr', fun _ a b hab => (k3 r' hr' a b hab).1⟩
  · refine ⟨r, hbec, fun f hf => (hkeep f hf).2 u c hp r hr, ?_⟩
    intro hcond a b hab
    have hle : (rest.filter BuildOp.isPrebuild).length ≤ 1 := by
      rcases hcond with hbase | hle
      · have := hi.base (by rw [hb]; exact hbase)
        rw [hp] at this
        simp at this
      · exact hle
    have : c1 = c := by
      unfold Triangulation.startCdt at hc1
      rw [hp] at hc1
      simp only [Except.ok.injEq] at hc1
      exact hc1.symm
    rw [← this] at hcon
    exact constrained_prefix (p2.trans p3) (hcon hle a b hab)

/-- **C33**: hence (if the triangulation has no face across a ring of constraint edges) no point of a polygon of the layer
is inside the grown outline of an obstacle, as long as `prebuild` was called at most once since it was added. -/
theorem C33_area_partial (hz : ZeroIsSmall K) (lib : TriLib K) (hnan : lib.RefusesNan) (hholes : lib.HolesExcluded)
    (within : TriData K → Face K → Vec2 K → Prop) (hsep : lib.Separates within)
    (bvh : Bvh K) (t t' : Triangulation K) (ht : Started t) (ops : List (BuildOp K)) (h : runOps lib t ops = .ok t')
    (l : Layer K) (hl : t'.asLayer lib bvh = .ok l) :
    ∃ (d : TriData K) (kept : List (Face K)), kept.Sublist d.inner ∧ l.polygons = kept.map (fun f =>
        { vertices := [UInt32.ofNat f.corners.1, UInt32.ofNat f.corners.2.1, UInt32.ofNat f.corners.2.2], isOneWay := false }) ∧
      ∀ before rest edges, HasObstacle t ops before rest edges →
        (t.baseLayer.isSome = true ∨ (rest.filter BuildOp.isPrebuild).length ≤ 1) →
        ∃ outline, BecomesOutline lib t.baseLayer.isSome before rest (LineString.close edges) outline ∧
          ∀ f ∈ kept, ∀ p, within d f p → lib.contains ⟨outline, []⟩ p = false := by
  obtain ⟨cdt, kept, ⟨d, hd, hsub, hpoly⟩, hall⟩ := C33_obstacles_partial hz lib hnan hholes bvh t t' ht ops h l hl
  refine ⟨d, kept, hsub, hpoly, ?_⟩
  intro before rest edges ho hcond
  obtain ⟨outline, h1, h2, h3⟩ := hall before rest edges ho
  refine ⟨outline, h1, ?_⟩
  intro f hf p hp
  rw [hsep cdt d outline hd (h3 hcond) f (hsub.subset hf) p hp]
  exact h2 f hf

end Polyanya
