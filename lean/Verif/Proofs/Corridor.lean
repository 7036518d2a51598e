import Verif.Proofs.Gen
import Verif.Proofs.Ids
/-
Every generated node is reached through a corridor; its path bends only at corners of the corridor.
-/

namespace Polyanya

variable {K : Type} [Scalar K]

theorem mem_windows2 {α : Type} {l : List α} {a b : α} :
    (a, b) ∈ windows2 l ↔ ∃ i, l[i]? = some a ∧ l[i + 1]? = some b := by
  unfold windows2
  rw [List.mem_iff_getElem?]
  constructor
  · rintro ⟨i, hi⟩
    rw [List.getElem?_zip_eq_some] at hi
    exact ⟨i, hi.1, by simpa using hi.2⟩
  · rintro ⟨i, h1, h2⟩
    exact ⟨i, List.getElem?_zip_eq_some.2 ⟨h1, by simpa using h2⟩⟩

/-- The edges enumerated by `edges_index` are exactly the cyclically consecutive pairs. -/
theorem mem_edgesIndex {p : Polygon} {es : List (UInt32 × UInt32)} (h : p.edgesIndex = .ok es)
    (a b : UInt32) : (a, b) ∈ es ↔ IsEdge p.vertices a b := by
  unfold Polygon.edgesIndex at h
  split at h
  · simp at h
  · rename_i v vs hv
    simp only [Except.ok.injEq] at h
    subst h
    rw [hv, List.mem_append, mem_windows2, List.mem_singleton, Prod.mk.injEq, List.getLast_eq_getElem]
    unfold IsEdge
    constructor
    · rintro (⟨i, h1, h2⟩ | ⟨h1, h2⟩)
      · obtain ⟨hlt, -⟩ := List.getElem?_eq_some_iff.1 h2
        exact ⟨i, by omega, h1, by rw [Nat.mod_eq_of_lt hlt]; exact h2⟩
      · refine ⟨vs.length, by simp, ?_, ?_⟩
        · rw [h1]; simp
        · simp [h2]
    · rintro ⟨i, hi, h1, h2⟩
      by_cases hlast : i + 1 < (v :: vs).length
      · rw [Nat.mod_eq_of_lt hlast] at h2
        exact .inl ⟨i, h1, h2⟩
      · have : i + 1 = (v :: vs).length := by omega
        rw [this, Nat.mod_self] at h2
        right
        simp only [List.length_cons] at this
        have hi' : i = vs.length := by omega
        subst hi'
        constructor
        · rw [List.getElem?_eq_getElem (by simp)] at h1
          simpa using (Option.some.inj h1).symm
        · simpa using h2.symm

theorem otherSideOf_mem {start stop : Vertex K} {cur : UInt32}
    (h : otherSideOf start stop cur ≠ u32Max) :
    otherSideOf start stop cur ∈ start.polygons ∧ otherSideOf start stop cur ∈ stop.polygons
      ∧ otherSideOf start stop cur ≠ cur := by
  unfold otherSideOf at h ⊢
  cases hf : ((start.polygons.filter (fun i => i ≠ u32Max && stop.polygons.contains i)).find?
    (fun p => p ≠ cur)) with
  | none => rw [hf] at h; exact absurd rfl h
  | some q =>
    have h1 := List.mem_of_find?_eq_some hf
    have h2 := List.find?_some hf
    simp only [List.mem_filter, Bool.and_eq_true, List.contains_iff_mem, decide_eq_true_eq] at h1 h2
    exact ⟨h1.1, h1.2.2, h2⟩

theorem onEdge_intersect {A B x y : Vec2 K} {line : Vec2 K × Vec2 K} {it : Vec2 K}
    (hx : OnEdge A B x) (hy : OnEdge A B y)
    (h : lineIntersectSegment line (x, y) = some it) : OnEdge A B it := by
  unfold lineIntersectSegment at h
  simp only at h
  split at h
  · simp at h
  · rename_i hr
    simp only [Bool.or_eq_true, not_or, Bool.not_eq_true', Bool.not_eq_false, inRange,
      Bool.and_eq_true] at hr
    simp only [Option.some.injEq] at h
    subst h
    exact .between hx hy hr.1.1 hr.1.2

theorem edgeStartStep_on {A B : Vec2 K} {root int0 sp ep : Vec2 K} {edge : UInt32 × UInt32}
    {ty : SuccTy} (hs : OnEdge A B sp) (he : OnEdge A B ep) :
    (∀ s ∈ (edgeStartStep root int0 sp ep edge ty).1,
      s.edge = edge ∧ OnEdge A B s.interval.1 ∧ OnEdge A B s.interval.2)
    ∧ OnEdge A B (edgeStartStep root int0 sp ep edge ty).2.1 := by
  unfold edgeStartStep
  split
  · split
    · rename_i it hit
      have := onEdge_intersect hs he hit
      simp only
      split
      · simp [hs, this]
      · simp [hs]
    · simp [hs]
  · simp [hs]
  · split <;> simp [hs]

theorem edgeEndStep_on {A B : Vec2 K} {root int0 int1 sp ep : Vec2 K} {edge : UInt32 × UInt32}
    {ty : SuccTy} (hs : OnEdge A B sp) (he : OnEdge A B ep) :
    ∀ s ∈ (edgeEndStep root int0 int1 sp ep edge ty).1,
      s.edge = edge ∧ OnEdge A B s.interval.1 ∧ OnEdge A B s.interval.2 := by
  unfold edgeEndStep
  simp only
  generalize hE : (if side ep (root, int1) = .left then
      lineIntersectSegment (root, int1) (sp, ep) else none).filter
        (fun it => tol6 <. it.distanceSquared ep) = E
  have hEon : ∀ it, E = some it → OnEdge A B it := by
    intro it hit
    rw [hit, Option.filter_eq_some_iff] at hE
    obtain ⟨hE, -⟩ := hE
    split at hE
    · exact onEdge_intersect hs he hE
    · simp at hE
  have hmain : OnEdge A B (E.getD ep) := by
    cases E with
    | none => exact he
    | some it => exact hEon it rfl
  intro s hsm
  split at hsm
  · split at hsm
    · rename_i it
      simp only [List.mem_cons, List.not_mem_nil, or_false] at hsm
      rcases hsm with rfl | rfl
      · exact ⟨rfl, hs, hmain⟩
      · exact ⟨rfl, hEon it rfl, he⟩
    · simp only [List.mem_cons, List.not_mem_nil, or_false] at hsm
      subst hsm
      exact ⟨rfl, hs, hmain⟩
  · split at hsm <;>
    · simp only [List.mem_cons, List.not_mem_nil, or_false] at hsm
      subst hsm
      exact ⟨rfl, hs, hmain⟩
  · simp only [List.mem_cons, List.not_mem_nil, or_false] at hsm
    subst hsm
    exact ⟨rfl, hs, hmain⟩

/-- Successors produced by `edges_between`: their edge is an edge of the polygon, their interval on it. -/
theorem edgesBetween_on {m : Mesh K} {node : SearchNode K} {succs : List (Successor K)}
    (h : edgesBetween m node = .ok succs) :
    ∃ layer poly, m.layers[(layerOf node.polygonTo).toNat]? = some layer
      ∧ layer.polygons[(polygonOf node.polygonTo).toNat]? = some poly
      ∧ ∀ s ∈ succs, IsEdge poly.vertices s.edge.1 s.edge.2 ∧
          ∃ va vb, layer.vertices[s.edge.1.toNat]? = some va
            ∧ layer.vertices[s.edge.2.toNat]? = some vb
            ∧ OnEdge (va.coords + layer.offset) (vb.coords + layer.offset) s.interval.1
            ∧ OnEdge (va.coords + layer.offset) (vb.coords + layer.offset) s.interval.2 := by
  unfold edgesBetween at h
  simp only [bind_eq_ok, idx_eq_ok] at h
  obtain ⟨layer, hl, poly, hp, prev, -, ev, -, ri, -, edges, hc, r, hf, h⟩ := h
  simp only [Except.ok.injEq] at h
  subst h
  refine ⟨layer, poly, hl, hp, ?_⟩
  have hedge : ∀ e ∈ edges, IsEdge poly.vertices e.1 e.2 := by
    unfold Polygon.circularEdgesIndex at hc
    simp only [bind_eq_ok, Except.ok.injEq] at hc
    obtain ⟨es, hes, rfl⟩ := hc
    intro e he
    have := List.mem_of_mem_drop (List.mem_of_mem_take he)
    rw [List.mem_append, or_self] at this
    exact (mem_edgesIndex hes e.1 e.2).1 this
  refine foldlM_inv (fun (st : List (Successor K) × SuccTy) => ∀ s ∈ st.1,
    IsEdge poly.vertices s.edge.1 s.edge.2 ∧ ∃ va vb, layer.vertices[s.edge.1.toNat]? = some va
            ∧ layer.vertices[s.edge.2.toNat]? = some vb
            ∧ OnEdge (va.coords + layer.offset) (vb.coords + layer.offset) s.interval.1
            ∧ OnEdge (va.coords + layer.offset) (vb.coords + layer.offset) s.interval.2) ?_ ?_ hf
  · simp
  · intro st e st' he hst hstep
    unfold edgesBetweenStep at hstep
    split at hstep
    · simp only [Except.ok.injEq] at hstep; exact hstep ▸ hst
    · simp only [bind_eq_ok, idxUnchecked_eq_ok, Except.ok.injEq] at hstep
      obtain ⟨va, hva, vb, hvb, rfl⟩ := hstep
      have h1 := edgeStartStep_on (root := node.root) (int0 := node.interval.1) (edge := e) (ty := st.2)
        (OnEdge.left (A := va.coords + layer.offset) (B := vb.coords + layer.offset)) OnEdge.right
      have h2 := edgeEndStep_on (root := node.root) (int0 := node.interval.1)
        (int1 := node.interval.2) (edge := e)
        (ty := (edgeStartStep node.root node.interval.1 (va.coords + layer.offset)
          (vb.coords + layer.offset) e st.2).2.2) h1.2
        (OnEdge.right (A := va.coords + layer.offset) (B := vb.coords + layer.offset))
      intro s hs
      simp only [List.mem_append] at hs
      rcases hs with (hs | hs) | hs
      · exact hst s hs
      · obtain ⟨h3, h4, h5⟩ := h1.1 s hs
        rw [h3]
        exact ⟨hedge e he, va, vb, hva, hvb, h4, h5⟩
      · obtain ⟨h3, h4, h5⟩ := h2 s hs
        rw [h3]
        exact ⟨hedge e he, va, vb, hva, hvb, h4, h5⟩

theorem Corridor.snoc {m : Mesh K} {s p : UInt32} {cs : List Crossing} {c : Crossing}
    (h : Corridor m s p cs) (hc : c.Valid m) (hp : c.src = p) : Corridor m s c.dst (cs ++ [c]) := by
  induction h with
  | nil p => subst hp; exact .cons hc (.nil _)
  | cons hv _ ih => exact .cons hv (ih hp)

/-- The crossing by which a node enters its polygon. -/
def SearchNode.crossing (n : SearchNode K) : Crossing :=
  ⟨n.polygonFrom, n.polygonTo, n.edge.1, n.edge.2⟩

/-- Invariant of every generated node. -/
structure NodeInv (q : Query K) (n : SearchNode K) (cs : List Crossing) : Prop where
  corridor : Corridor q.mesh q.src.2 n.polygonFrom cs
  valid : n.crossing.Valid q.mesh
  inner : ∀ c ∈ cs, c.dst ≠ q.dst.2 ∧ Open q.mesh c.dst ∧ Unblocked q.blocked c.dst
  last : n.polygonTo = q.dst.2 ∨ Open q.mesh n.polygonTo
  unblocked : Unblocked q.blocked n.polygonTo
  prev : n.previousPolygonLayer = layerOf n.polygonFrom
  left : OnCrossing q.mesh n.interval.1 n.crossing
  right : OnCrossing q.mesh n.interval.2 n.crossing
  bends : ∃ sub, sub.Sublist cs ∧ List.Forall₂ (BendsAt q.mesh q.blocked) n.path sub

theorem notDeadEnd_of_open {m : Mesh K} {id : UInt32} (h : Open m id) : NotDeadEnd m id := by
  obtain ⟨l, p, h1, h2, h3⟩ := h
  rw [layerOf_toNat] at h1
  rw [polygonOf_toNat] at h2
  exact ⟨l, p, ⟨h1, h2⟩, h3⟩

theorem unblocked_of_contains {blocked : List UInt8} {id : UInt32}
    (h : blocked.contains (layerOf id) = false) : Unblocked blocked id := by
  intro b hb heq
  rw [← layerOf_toNat] at heq
  have : b = layerOf id := UInt8.toNat_inj.1 heq
  rw [this] at hb
  simp [hb] at h

theorem beq_self_of_dist [NanLaws K] {r d : Vec2 K} {f : K}
    (h : Scalar.isNan (f +. r.distance d) = false) : r.beq r = true := by
  by_contra hb
  have hx : Scalar.isNan r.x = true ∨ Scalar.isNan r.y = true := by
    rcases NanLaws.eq_self_or_nan r.x with h1 | h1
    · rcases NanLaws.eq_self_or_nan r.y with h2 | h2
      · simp [Vec2.beq, h1, h2] at hb
      · exact .inr h2
    · exact .inl h1
  have : Scalar.isNan (f +. r.distance d) = true := by
    apply NanLaws.nan_add_right
    apply NanLaws.nan_sqrt
    rcases hx with hx | hx
    · exact NanLaws.nan_add_left _ _ (NanLaws.nan_mul_left _ _ (NanLaws.nan_sub_left _ _ hx))
    · exact NanLaws.nan_add_right _ _ (NanLaws.nan_mul_left _ _ (NanLaws.nan_sub_left _ _ hx))
  rw [this] at h
  exact Bool.noConfusion h

/-- A node that keeps the root of its parent keeps its path. -/
theorem added_same_root [NanLaws K] {q : Query K} {other : UInt32} {start stop : Vec2 K × UInt32}
    {node n : SearchNode K} (h : Added q node.root other start stop node n) : n.path = node.path := by
  obtain ⟨newF, hh, h1, -, h3, -, rfl⟩ := h
  by_cases hb : node.root.beq node.root = true
  · simp [mkNode, hb]
  · exfalso
    unfold newDistance at h1
    rw [if_neg hb] at h1
    split at h1
    · simp only [bind_eq_ok, Except.ok.injEq] at h1
      obtain ⟨l, -, rfl⟩ := h1
      exact hb (beq_self_of_dist h3)
    · simp only [Except.ok.injEq] at h1
      subst h1
      exact hb (beq_self_of_dist h3)

theorem added_path {q : Query K} {root : Vec2 K} {other : UInt32} {start stop : Vec2 K × UInt32}
    {node n : SearchNode K} (h : Added q root other start stop node n) :
    n.path = node.path ∨ n.path = node.path ++ [root] := by
  obtain ⟨newF, hh, -, -, -, -, rfl⟩ := h
  simp only [mkNode]
  split
  · exact .inl rfl
  · exact .inr rfl

theorem added_fields {q : Query K} {root : Vec2 K} {other : UInt32} {start stop : Vec2 K × UInt32}
    {node n : SearchNode K} (h : Added q root other start stop node n) :
    n.polygonFrom = node.polygonTo ∧ n.polygonTo = other ∧ n.interval = (start.1, stop.1)
      ∧ n.edge = (start.2, stop.2) ∧ n.previousPolygonLayer = layerOf node.polygonTo
      ∧ n.root = root := by
  obtain ⟨newF, hh, -, -, -, -, rfl⟩ := h
  exact ⟨rfl, rfl, rfl, rfl, rfl, rfl⟩

theorem mayBend_of_canTurnAt {blocked : List UInt8} {v : Vertex K} (h : canTurnAt blocked v = true) :
    MayBend blocked v := by
  unfold canTurnAt at h
  simp only [Bool.or_eq_true, Bool.and_eq_true, Bool.not_eq_true', List.any_eq_true,
    List.contains_iff_mem] at h
  rcases h with h | ⟨hne, p, hp, h⟩
  · exact .inl h
  · refine .inr ⟨by rintro rfl; simp at hne, p, hp, ?_⟩
    rcases h with h | h
    · exact .inl (by simpa using h)
    · exact .inr ⟨_, h, layerOf_toNat p⟩

/-- The root of a child is the root of the parent, or a corner of the edge crossed by the parent. -/
theorem successorRoot_cases {q : Query K} {node : SearchNode K} {layer : Layer K}
    {start stop : Vertex K} {s : Successor K} {root : Vec2 K}
    (hprev : node.previousPolygonLayer = layerOf node.polygonFrom)
    (h : successorRoot q.mesh q.blocked node layer start stop s = .ok (some root)) :
    root = node.root ∨ BendsAt q.mesh q.blocked root node.crossing := by
  unfold successorRoot at h
  split at h
  · split at h
    · simp at h
    · simp only [bind_eq_ok, idx_eq_ok] at h
      obtain ⟨prev, hp, v, hv, h⟩ := h
      split at h
      · rename_i hc
        simp only [Bool.and_eq_true] at hc
        simp only [Except.ok.injEq, Option.some.injEq] at h
        subst h
        rw [hprev, layerOf_toNat] at hp
        exact .inr ⟨prev, v, hp, .inl hv, mayBend_of_canTurnAt hc.1, hc.2⟩
      · simp at h
  · simp only [Except.ok.injEq, Option.some.injEq] at h
    exact .inl h.symm
  · split at h
    · simp at h
    · simp only [bind_eq_ok, idx_eq_ok] at h
      obtain ⟨prev, hp, v, hv, h⟩ := h
      split at h
      · rename_i hc
        simp only [Bool.and_eq_true] at hc
        simp only [Except.ok.injEq, Option.some.injEq] at h
        subst h
        rw [hprev, layerOf_toNat] at hp
        exact .inr ⟨prev, v, hp, .inr hv, mayBend_of_canTurnAt hc.1, hc.2⟩
      · simp at h

theorem gen_inv [NanLaws K] {q : Query K} (hd : q.dst.2 ≠ u32Max) {n : SearchNode K} (h : Gen q n) :
    ∃ cs, NodeInv q n cs := by
  induction h with
  | setup hs =>
    obtain ⟨layer, poly, edges, edge, start, stop, hl, hp, he, hm, h0, h1, hb, hgo, hA⟩ := hs
    refine ⟨[], ?_⟩
    obtain ⟨f1, f2, f3, f4, f5, f6⟩ := added_fields hA
    have hmax : otherSideOf start stop q.src.2 ≠ u32Max := by
      rcases hgo with hgo | hgo
      · rw [hgo]; exact hd
      · exact hgo.1
    obtain ⟨hm1, hm2, hm3⟩ := otherSideOf_mem hmax
    rw [layerOf_toNat] at hl
    rw [polygonOf_toNat] at hp
    refine { corridor := ?_, valid := ?_, inner := by simp, last := ?_, unblocked := ?_, prev := ?_,
             left := ?_, right := ?_, bends := ?_ }
    · rw [f1]; exact .nil _
    · refine ⟨layer, poly, start, stop, ?_, ?_, ?_, ?_, ?_, ?_, ?_, ?_⟩ <;>
        simp only [SearchNode.crossing, f1, f2, f4, emptyNode]
      · exact ⟨hl, hp⟩
      · exact (mem_edgesIndex he _ _).1 hm
      · exact h0
      · exact h1
      · exact hm1
      · exact hm2
      · exact hmax
      · exact hm3
    · rw [f2]; exact hgo.imp id (·.2)
    · rw [f2]; exact unblocked_of_contains hb
    · rw [f5, f1]
    · refine ⟨layer, start, stop, ?_, ?_, ?_, ?_⟩ <;>
        simp only [SearchNode.crossing, f1, f3, f4, emptyNode]
      · exact hl
      · exact h0
      · exact h1
      · exact .left
    · refine ⟨layer, start, stop, ?_, ?_, ?_, ?_⟩ <;>
        simp only [SearchNode.crossing, f1, f3, f4, emptyNode]
      · exact hl
      · exact h0
      · exact h1
      · exact .right
    · refine ⟨[], .refl _, ?_⟩
      have := added_same_root (node := emptyNode q.src) hA
      rw [this]
      exact .nil
  | @child node n _ hc ih =>
    obtain ⟨cs, hi⟩ := ih
    obtain ⟨layer, succs, s, start, stop, root, hnd, hl, he, hs, h0, h1, hmax, hb, hgo, hfrom, hr, -, hA⟩
      := hc
    obtain ⟨f1, f2, f3, f4, f5, f6⟩ := added_fields hA
    obtain ⟨hm1, hm2, hm3⟩ := otherSideOf_mem hmax
    obtain ⟨layer', poly, hl', hp, hon⟩ := edgesBetween_on he
    rw [hl] at hl'
    obtain rfl := Option.some.inj hl'
    obtain ⟨hedge, va, vb, hva, hvb, ho1, ho2⟩ := hon s hs
    rw [h0] at hva
    obtain rfl := Option.some.inj hva
    rw [h1] at hvb
    obtain rfl := Option.some.inj hvb
    rw [layerOf_toNat] at hl
    rw [polygonOf_toNat] at hp
    have hnode : Open q.mesh node.polygonTo := hi.last.resolve_left hnd
    refine ⟨cs ++ [node.crossing], ?_⟩
    refine { corridor := ?_, valid := ?_, inner := ?_, last := ?_, unblocked := ?_, prev := ?_,
             left := ?_, right := ?_, bends := ?_ }
    · rw [f1]; exact hi.corridor.snoc hi.valid rfl
    · refine ⟨layer, poly, start, stop, ?_, ?_, ?_, ?_, ?_, ?_, ?_, ?_⟩ <;>
        simp only [SearchNode.crossing, f1, f2, f4]
      · exact ⟨hl, hp⟩
      · exact hedge
      · exact h0
      · exact h1
      · exact hm1
      · exact hm2
      · exact hmax
      · exact hm3
    · intro c hcm
      rcases List.mem_append.1 hcm with hcm | hcm
      · exact hi.inner c hcm
      · rw [List.mem_singleton.1 hcm]
        exact ⟨hnd, hnode, hi.unblocked⟩
    · rw [f2]; exact hgo
    · rw [f2]; exact unblocked_of_contains hb
    · rw [f5, f1]
    · refine ⟨layer, start, stop, ?_, ?_, ?_, ?_⟩ <;> simp only [SearchNode.crossing, f1, f3, f4]
      · exact hl
      · exact h0
      · exact h1
      · exact ho1
    · refine ⟨layer, start, stop, ?_, ?_, ?_, ?_⟩ <;> simp only [SearchNode.crossing, f1, f3, f4]
      · exact hl
      · exact h0
      · exact h1
      · exact ho2
    · obtain ⟨sub, hsub, hf⟩ := hi.bends
      have hsub' : sub.Sublist (cs ++ [node.crossing]) := hsub.trans (List.sublist_append_left ..)
      rcases successorRoot_cases hi.prev hr with hroot | hroot
      · subst hroot
        rw [added_same_root hA]
        exact ⟨sub, hsub', hf⟩
      · rcases added_path hA with hpath | hpath
        · rw [hpath]; exact ⟨sub, hsub', hf⟩
        · rw [hpath]
          exact ⟨sub ++ [node.crossing], hsub.append (.refl _), List.rel_append hf (.cons hroot .nil)⟩

end Polyanya
