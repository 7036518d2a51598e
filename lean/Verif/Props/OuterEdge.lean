import Verif.Props.Triangulation
/-
C52: the outer edge.
-/

namespace Polyanya

variable {K : Type} [Scalar K]

theorem apply_outer (hz : ZeroIsSmall K) {lib : TriLib K} {a : AgentRadius K} {p p' : GeoPolygon K}
    (hc : LineString.close p.exterior = p.exterior) (h : a.apply lib p = .ok p') :
    OuterBecomes lib a.settings p.exterior p'.exterior := by
  unfold OuterBecomes
  cases a with
  | none =>
    simp only [AgentRadius.apply, Except.ok.injEq] at h
    subst h
    rw [if_neg]
    simp [AgentRadius.settings]
  | obstacles d n e =>
    rw [if_neg (by simp [AgentRadius.settings])]
    simp only [AgentRadius.apply] at h
    split at h
    · obtain ⟨h1, -⟩ := inflateObstacles_grown h
      rw [h1, hc]
    · rw [Except.ok.injEq] at h
      subst h; rfl
  | everything d n e =>
    simp only [AgentRadius.apply] at h
    split at h
    · rename_i hb
      rw [if_pos ⟨rfl, hb⟩]
      unfold GeoPolygon.inflate at h
      simp only [bind_eq_ok] at h
      obtain ⟨o, ho, obs, -, hole, hh, h⟩ := h
      rw [Except.ok.injEq] at h
      subst h
      rw [idx_eq_ok] at hh
      obtain ⟨o1, o2⟩ := o
      cases o2 with
      | nil => simp [GeoPolygon.new] at hh
      | cons x xs =>
        refine ⟨o1, x, xs, ho, ?_⟩
        simp only [GeoPolygon.new, List.map_cons, List.getElem?_cons_zero, Option.some.injEq] at hh
        rw [← hh]
        rfl
    · rename_i hb
      rw [if_neg (by rintro ⟨-, h⟩; exact hb h)]
      rw [Except.ok.injEq] at h
      subst h; rfl

theorem foldl_push_exterior (l : List (LineString K)) (p : GeoPolygon K) :
    (l.foldl GeoPolygon.push p).exterior = p.exterior := by
  induction l generalizing p with
  | nil => rfl
  | cons r l ih => rw [List.foldl_cons, ih]; rfl

/-- Invariant of builders with outer edge `E`. -/
structure OuterInv (lib : TriLib K) (E : LineString K) (before : List (BuildOp K)) (t : Triangulation K) : Prop where
  base : t.baseLayer = none
  exterior : t.inner.exterior = E
  settings : t.agentRadius.settings = lastSettings before
  unbuilt : t.prebuilt = none → before.filter BuildOp.isPrebuild = []
  built : ∀ u c, t.prebuilt = some (u, c) → ∃ pre rest, before = pre ++ .prebuild :: rest ∧
    rest.filter BuildOp.isPrebuild = [] ∧ OuterBecomes lib (lastSettings pre) E u.exterior ∧
    ∀ a b, (a, b) ∈ windows2 u.exterior → Constrained c a b

theorem run_outer (hz : ZeroIsSmall K) {lib : TriLib K} {E : LineString K} (hE : LineString.close E = E)
    {before : List (BuildOp K)} {t t' : Triangulation K} (ht : OuterInv lib E before t) {o : BuildOp K}
    (h : o.run lib t = .ok t') : OuterInv lib E (before ++ [o]) t' := by
  have hset := run_settings ht.settings h
  by_cases ho : o.isPrebuild = true
  · cases o <;> simp only [BuildOp.isPrebuild, Bool.false_eq_true] at ho
    simp only [BuildOp.run, Triangulation.prebuild] at h
    rw [ht.base] at h
    simp only [Option.isSome_none, Bool.false_eq_true, ↓reduceIte, bind_eq_ok] at h
    obtain ⟨inner, h1, c1, h2, c2, h3, h4⟩ := h
    have hout := apply_outer hz (by rw [ht.exterior, hE]) h1
    rw [ht.exterior, ht.settings] at hout
    obtain ⟨p1, k1⟩ := addEdges_ok h2
    obtain ⟨p2, -⟩ := addRings_ok h3
    rw [Except.ok.injEq] at h4
    subst h4
    refine ⟨rfl, ?_, hset, by simp, ?_⟩
    · show LineString.close t.inner.exterior = E
      rw [ht.exterior, hE]
    · intro u c e
      simp only [Option.some.injEq, Prod.mk.injEq] at e
      obtain ⟨rfl, rfl⟩ := e
      cases hp : t.prebuilt with
      | none => exact ⟨before, [], rfl, rfl, hout, fun a b hab => constrained_prefix p2 (k1 a b hab).1⟩
      | some uc =>
        simp only
        rw [foldl_push_exterior]
        exact ⟨before, [], rfl, rfl, hout, fun a b hab => constrained_prefix p2 (k1 a b hab).1⟩
  · have hext : t'.inner.exterior = E ∧ t'.prebuilt = t.prebuilt ∧ t'.baseLayer = none := by
      have hcl : LineString.close t.inner.exterior = E := by rw [ht.exterior, hE]
      cases o <;> simp only [BuildOp.isPrebuild, not_true] at ho <;>
          simp only [BuildOp.run, Except.ok.injEq] at h <;> subst h <;>
          first
          | exact ⟨ht.exterior, rfl, ht.base⟩
          | exact ⟨hcl, rfl, ht.base⟩
    obtain ⟨h1, h2, h3⟩ := hext
    refine ⟨h3, h1, hset, ?_, ?_⟩
    · intro hn
      rw [List.filter_append, ht.unbuilt (h2 ▸ hn), List.nil_append, List.filter_cons_of_neg ho]
      rfl
    · intro u c e
      obtain ⟨pre, rest, k1, k2, k3⟩ := ht.built u c (h2 ▸ e)
      refine ⟨pre, rest ++ [o], by rw [k1]; simp, ?_, k3⟩
      rw [List.filter_append, k2, List.nil_append, List.filter_cons_of_neg ho]
      rfl

theorem runOps_outer (hz : ZeroIsSmall K) {lib : TriLib K} {E : LineString K} (hE : LineString.close E = E) :
    ∀ {ops before : List (BuildOp K)} {t t' : Triangulation K}, OuterInv lib E before t → runOps lib t ops = .ok t' →
      OuterInv lib E (before ++ ops) t'
  | [], before, t, t', ht, h => by
    simp only [runOps, List.foldlM_nil, res_pure, Except.ok.injEq] at h
    subst h
    rw [List.append_nil]; exact ht
  | o :: ops, before, t, t', ht, h => by
    rw [runOps_cons, bind_eq_ok] at h
    obtain ⟨t1, h1, h2⟩ := h
    have := runOps_outer hz hE (run_outer hz hE ht h1) h2
    rwa [List.append_assoc] at this

/-- Closing a ring whose first point is not NaN twice is closing it once. -/
theorem close_close {r : LineString K} (h : ∀ p, r.head? = some p → p.beq p = true) :
    LineString.close (LineString.close r) = LineString.close r := by
  by_cases hx : LineString.isClosed r = true
  · have : LineString.close r = r := by unfold LineString.close; rw [if_pos hx]
    rw [this, this]
  · have e : LineString.close r = r ++ (r.head?).toList := by unfold LineString.close; rw [if_neg hx]
    rw [e]
    cases r with
    | nil => rfl
    | cons a x =>
      have hb := h a rfl
      unfold LineString.close
      rw [if_pos]
      unfold LineString.isClosed
      simp only [List.cons_append, List.head?_cons, Option.toList_some]
      rw [← List.cons_append, List.getLast?_append]
      simpa using hb

/-- **C52**: a builder started with an outer edge (not with NaN coordinates) makes, after any sequence of calls, a layer
of faces that all have their center inside the outer edge (moved inwards by the agent radius if asked for); and the outer
edge, as of the last `prebuild` (else of the end) is made of constraint edges. -/
theorem C52_outer_edge (hz : ZeroIsSmall K) (lib : TriLib K) (hext : lib.ExteriorRespected) (bvh : Bvh K)
    (edges : List (Vec2 K)) (hnan : ∀ p, edges.head? = some p → p.beq p = true) (holes : List (LineString K))
    (t t' : Triangulation K)
    (ht : t = Triangulation.fromOuterEdges edges ∨ t = Triangulation.fromGeoPolygon (GeoPolygon.new edges holes))
    (ops : List (BuildOp K)) (h : runOps lib t ops = .ok t') (l : Layer K) (hl : t'.asLayer lib bvh = .ok l) :
    ∃ cdt kept, FacesOf lib l cdt kept ∧
      (∃ outer, OuterBecomes lib (lastSettings ops) (LineString.close edges) outer ∧
        ∀ f ∈ kept, lib.contains ⟨outer, []⟩ f.center = true) ∧
      ∃ pre outer, UpToPrebuild ops pre ∧ OuterBecomes lib (lastSettings pre) (LineString.close edges) outer ∧
        (∀ f ∈ kept, lib.contains ⟨outer, []⟩ f.center = true) ∧
        ∀ a b, (a, b) ∈ outer.zip outer.tail → Constrained cdt a b := by
  have hE := close_close hnan
  have h0 : OuterInv lib (LineString.close edges) [] t := by
    rcases ht with rfl | rfl
    · exact ⟨rfl, rfl, rfl, fun _ => rfl, fun u c e => by simp [Triangulation.fromOuterEdges] at e⟩
    · exact ⟨rfl, rfl, rfl, fun _ => rfl, fun u c e => by simp [Triangulation.fromGeoPolygon] at e⟩
  have hi := runOps_outer hz hE h0 h
  rw [List.nil_append] at hi
  unfold Triangulation.asLayer at hl
  rw [bind_eq_ok] at hl
  obtain ⟨⟨inner, cdt⟩, hc, hl⟩ := hl
  rw [bind_eq_ok] at hl
  obtain ⟨d, hd, hl⟩ := hl
  simp only at hd hl
  unfold TriData.toLayer at hl
  simp only [bind_eq_ok] at hl
  obtain ⟨kept, hk, map, -, vs, -, hl⟩ := hl
  rw [Except.ok.injEq] at hl
  subst hl
  have hk' := keptFaces_eq hk
  refine ⟨cdt, kept, ⟨d, hd, by rw [hk']; exact List.filter_sublist, rfl⟩, ?_⟩
  unfold Triangulation.constraints at hc
  simp only [bind_eq_ok, Except.ok.injEq, Prod.mk.injEq] at hc
  obtain ⟨c1, hc1, c2, hc2, inner', hc3, c3, hc4, rfl, rfl⟩ := hc
  obtain ⟨p3, -⟩ := addRings_ok hc4
  have hc2 : c1 = c2 := by
    unfold addBase at hc2
    rw [hi.base] at hc2
    simpa using hc2
  subst hc2
  have hout := apply_outer hz (by rw [hi.exterior, hE]) hc3
  rw [hi.exterior, hi.settings] at hout
  have hkeep : ∀ f ∈ kept, t'.inUsed lib f.center = true ∧ lib.contains inner' f.center = true := by
    intro f hf
    rw [hk', List.mem_filter] at hf
    have hf := hf.2
    rw [decide_eq_true_eq] at hf
    unfold Triangulation.keeps at hf
    split at hf
    · rename_i hin
      rw [Bool.and_eq_true] at hin
      exact hin
    · rw [hi.base] at hf
      simp at hf
  refine ⟨⟨_, hout, fun f hf => hext _ _ (hkeep f hf).2⟩, ?_⟩
  cases hp : t'.prebuilt with
  | none =>
    have hno := hi.unbuilt hp
    refine ⟨ops, inner'.exterior, .inl ⟨hno, rfl⟩, hout, fun f hf => hext _ _ (hkeep f hf).2, ?_⟩
    intro a b hab
    unfold Triangulation.startCdt at hc1
    rw [hp] at hc1
    simp only at hc1
    -- the ring whose edges were added is the exterior of `inner'`
    have hsame : ∃ r, Cdt.addEdges lib [] r = .ok c1 ∧ r = inner'.exterior := by
      cases ha : t'.agentRadius with
      | none =>
        rw [ha] at hc1 hc3
        simp only [AgentRadius.apply, Except.ok.injEq] at hc3
        exact ⟨_, hc1, by rw [hc3]⟩
      | obstacles d n e =>
        rw [ha] at hc1
        refine ⟨_, hc1, ?_⟩
        rw [OuterBecomes, if_neg] at hout
        · rw [hi.exterior, hout]
        · rw [← hi.settings, ha]
          simp [AgentRadius.settings]
      | everything d n e =>
        rw [ha] at hc1 hc3
        simp only [AgentRadius.apply] at hc1 hc3
        split at hc1
        · rename_i hb
          rw [if_pos hb] at hc3
          rw [bind_eq_ok] at hc1
          obtain ⟨defl, h1, h2⟩ := hc1
          refine ⟨_, h2, ?_⟩
          unfold GeoPolygon.inflate at h1 hc3
          simp only [bind_eq_ok] at h1 hc3
          obtain ⟨o, ho, obs, -, hole, hh, h1⟩ := h1
          obtain ⟨o', ho', obs', -, hole', hh', h1'⟩ := hc3
          rw [ho, Except.ok.injEq] at ho'
          subst ho'
          rw [hh, Except.ok.injEq] at hh'
          subst hh'
          rw [Except.ok.injEq] at h1 h1'
          rw [← h1, ← h1']
          rfl
        · rename_i hb
          rw [if_neg hb, Except.ok.injEq] at hc3
          exact ⟨_, hc1, by rw [hc3]⟩
    obtain ⟨r, hr1, rfl⟩ := hsame
    exact constrained_prefix p3 ((addEdges_ok hr1).2 a b hab).1
  | some uc =>
    obtain ⟨u, c⟩ := uc
    obtain ⟨pre, rest, k1, k2, k3, k4⟩ := hi.built u c hp
    refine ⟨pre, u.exterior, .inr ⟨rest, k1, k2⟩, k3, ?_, ?_⟩
    · intro f hf
      have := (hkeep f hf).1
      unfold Triangulation.inUsed at this
      rw [hp] at this
      exact hext _ _ this
    · intro a b hab
      unfold Triangulation.startCdt at hc1
      rw [hp] at hc1
      simp only [Except.ok.injEq] at hc1
      subst hc1
      exact constrained_prefix p3 (k4 a b hab)

end Polyanya
