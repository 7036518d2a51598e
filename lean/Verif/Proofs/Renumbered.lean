import Verif.Spec.Renumbered
import Verif.Proofs.Alike
import Verif.Proofs.Ids
import Verif.Proofs.Corridor
/-
Searches in meshes that differ in the numbers of their polygons and in the division into layers.
-/

namespace Polyanya

set_option linter.unusedSectionVars false

variable {K : Type} [Scalar K]

/-- Everything that the simulation needs; `N x x'`: the vertices `x` and `x'` list corresponding polygons. -/
structure Renum (cfg : Cfg) (N : Vertex K → Vertex K → Prop) (π : UInt32 → UInt32) (m m' : Mesh K) (B B' : List UInt8) (P : UInt32 → Prop) : Prop where
  injective : Function.Injective π
  outside : π u32Max = u32Max
  has : ∀ id, P id → m.Has id
  polygons : ∀ id l p, P id → HasPolygon m id l p → ∃ l' p', HasPolygon m' (π id) l' p' ∧ p'.isOneWay = p.isOneWay ∧
    List.Forall₂ (fun v v' => ∃ x x' : Vertex K, l.vertices[v.toNat]? = some x ∧ l'.vertices[v'.toNat]? = some x' ∧
      x'.coords + l'.offset = x.coords + l.offset ∧ N x x' ∧ (cfg.detailed = true → layerOf v' = layerOf v))
      p.vertices p'.vertices
  lists : ∀ id l p, P id → HasPolygon m id l p → ∀ v ∈ p.vertices, ∀ x, l.vertices[v.toNat]? = some x →
    ∀ q ∈ x.polygons, q = u32Max ∨ P q
  blocked : ∀ q, q = u32Max ∨ P q → (layerOf (π q) ∈ B' ↔ layerOf q ∈ B)
  turn : ∀ x x', N x x' → (∀ q ∈ x.polygons, q = u32Max ∨ P q) → canTurnAt B' x' = canTurnAt B x
  layer : cfg.detailed = true → ∀ q, layerOf (π q) = layerOf q
  scale : cfg.detailed = true → List.Forall₂ (fun l l' : Layer K => l'.scale = l.scale) m.layers m'.layers
  other : ∀ id l p a b x y x' y', P id → HasPolygon m id l p → IsEdge p.vertices a b → l.vertices[a.toNat]? = some x →
    l.vertices[b.toNat]? = some y → N x x' → N y y' → otherSideOf x' y' (π id) = π (otherSideOf x y id)

/-- Corners that correspond, and list numbers of polygons. -/
def CornerTo (cfg : Cfg) (N : Vertex K → Vertex K → Prop) (P : UInt32 → Prop) (l l' : Layer K) (v v' : UInt32) : Prop :=
  ∃ x x' : Vertex K, l.vertices[v.toNat]? = some x ∧ l'.vertices[v'.toNat]? = some x' ∧
    x'.coords + l'.offset = x.coords + l.offset ∧ N x x' ∧ (∀ q ∈ x.polygons, q = u32Max ∨ P q) ∧
    (cfg.detailed = true → layerOf v' = layerOf v)

/-- Edges of polygon `p` that correspond. -/
def EdgeTo (cfg : Cfg) (N : Vertex K → Vertex K → Prop) (P : UInt32 → Prop) (p : Polygon) (l l' : Layer K) (e e' : UInt32 × UInt32) :
    Prop := OnEnds (CornerTo cfg N P l l') e e' ∧ IsEdge p.vertices e.1 e.2

variable {cfg : Cfg} {N : Vertex K → Vertex K → Prop} {P : UInt32 → Prop} {p : Polygon} {π : UInt32 → UInt32} {m m' : Mesh K} {B B' : List UInt8} {l l' : Layer K}

theorem forall₂_withMem {α β : Type} {R : α → β → Prop} {P : α → Prop} {l : List α} {l' : List β}
    (h : List.Forall₂ R l l') (hp : ∀ a ∈ l, P a) : List.Forall₂ (fun a b => R a b ∧ P a) l l' := by
  induction h with
  | nil => exact .nil
  | cons hab _ ih =>
    exact .cons ⟨hab, hp _ (List.mem_cons_self ..)⟩ (ih fun a ha => hp a (List.mem_cons_of_mem _ ha))

theorem forall₂_withBoth {α β : Type} {R : α → β → Prop} {l : List α} {l' : List β}
    (h : List.Forall₂ R l l') : List.Forall₂ (fun a b => R a b ∧ a ∈ l ∧ b ∈ l') l l' := by
  induction h with
  | nil => exact .nil
  | cons hab _ ih =>
    exact .cons ⟨hab, List.mem_cons_self .., List.mem_cons_self ..⟩
      (ih.imp fun _ _ h => ⟨h.1, List.mem_cons_of_mem _ h.2.1, List.mem_cons_of_mem _ h.2.2⟩)

theorem layerOf_lt24 {v : UInt32} (h : v.toNat < 2 ^ 24) : layerOf v = 0 := by
  rw [← UInt8.toNat_inj, layerOf_toNat]
  unfold idLayer
  show _ = 0
  omega

theorem Renum.polygon (h : Renum cfg N π m m' B B' P) {id : UInt32} (hP : P id) {l : Layer K} {p : Polygon}
    (hp : HasPolygon m id l p) :
    ∃ l' p', HasPolygon m' (π id) l' p' ∧ p'.isOneWay = p.isOneWay ∧
      List.Forall₂ (CornerTo cfg N P l l') p.vertices p'.vertices := by
  obtain ⟨l', p', h1, h2, h3⟩ := h.polygons id l p hP hp
  refine ⟨l', p', h1, h2, (forall₂_withMem h3 (h.lists id l p hP hp)).imp ?_⟩
  rintro v v' ⟨⟨x, x', a1, a2, a3, a4, a5⟩, hl⟩
  exact ⟨x, x', a1, a2, a3, a4, hl x a1, a5⟩

theorem HasPolygon.layer {id : UInt32} {p : Polygon} (h : HasPolygon m id l p) :
    idx m.layers (layerOf id).toNat = .ok l := idx_eq_ok.2 (by rw [layerOf_toNat]; exact h.1)

theorem HasPolygon.poly {id : UInt32} {p : Polygon} (h : HasPolygon m id l p) :
    idx l.polygons (polygonOf id).toNat = .ok p := idx_eq_ok.2 (by rw [polygonOf_toNat]; exact h.2)

/-- Successors that correspond. -/
structure SuccTo (cfg : Cfg) (N : Vertex K → Vertex K → Prop) (P : UInt32 → Prop) (p : Polygon) (l l' : Layer K) (s s' : Successor K) : Prop where
  interval : s'.interval = s.interval
  ty : s'.ty = s.ty
  edge : EdgeTo cfg N P p l l' s.edge s'.edge

/-- Nodes that correspond. -/
structure NodeTo (cfg : Cfg) (N : Vertex K → Vertex K → Prop) (P : UInt32 → Prop) (π : UInt32 → UInt32) (m m' : Mesh K) (n n' : SearchNode K) : Prop where
  rest : n' = { n with edge := n'.edge, polygonFrom := π n.polygonFrom, polygonTo := π n.polygonTo,
                       previousPolygonLayer := n'.previousPolygonLayer }
  polygonFrom : P n.polygonFrom
  polygonTo : P n.polygonTo
  edge : ∃ l l', m.layers[n.previousPolygonLayer.toNat]? = some l ∧
    m'.layers[n'.previousPolygonLayer.toNat]? = some l' ∧ OnEnds (CornerTo cfg N P l l') n.edge n'.edge

/-- Instances that correspond. -/
structure InstTo (cfg : Cfg) (N : Vertex K → Vertex K → Prop) (P : UInt32 → Prop) (π : UInt32 → UInt32) (m m' : Mesh K) (B B' : List UInt8) (i i' : Inst K) : Prop where
  rootHistory : i'.rootHistory = i.rootHistory
  start : cfg.detailed = true → i'.start = i.start
  goal : i'.goal = i.goal
  polygonTo : i'.polygonTo = π i.polygonTo
  target : P i.polygonTo
  blocked : i.blocked = B
  blocked' : i'.blocked = B'
  queue : List.Forall₂ (NodeTo cfg N P π m m') i.queue i'.queue
  nodeBuffer : List.Forall₂ (NodeTo cfg N P π m m') i.nodeBuffer i'.nodeBuffer

theorem rightIndex_to {p p' : Polygon} (h : List.Forall₂ (CornerTo cfg N P l l') p.vertices p'.vertices) (x : Vec2 K) :
    rightIndex l' p' x = rightIndex l p x := by
  unfold rightIndex
  have hz := forall₂_zipIdx h 0
  rw [findFirst_alike (g := fun (v : UInt32 × Nat) => do
    let vx ← idx l'.vertices v.1.toNat
    .ok (if (vx.coords + l'.offset).distanceSquared x <. Scalar.lit 1 3 then some v.2 else none)) hz ?_]
  · congr 1
    funext near
    cases near with
    | some i => rfl
    | none =>
      have : RR (List.Forall₂ Eq) (p.vertices.zipIdx.mapM (fun v => do
          let vx ← idx l.vertices v.1.toNat
          .ok (v.2, (vx.coords + l.offset).distanceSquared x)))
          (p'.vertices.zipIdx.mapM (fun v => do
          let vx ← idx l'.vertices v.1.toNat
          .ok (v.2, (vx.coords + l'.offset).distanceSquared x))) := by
        refine RR.mapM hz ?_
        rintro ⟨a, i⟩ ⟨b, j⟩ ⟨⟨y, y', h1, h2, h3, -, -, -⟩, hj⟩
        simp only at h1 h2 hj ⊢
        rw [idx_eq_ok.2 h1, idx_eq_ok.2 h2, res_bind_ok, res_bind_ok, h3, hj]
        exact .ok rfl
      simp only
      rw [this.listEq]
  · rintro ⟨a, i⟩ ⟨b, j⟩ ⟨⟨y, y', h1, h2, h3, -, -, -⟩, hj⟩
    simp only at h1 h2 hj ⊢
    rw [idx_eq_ok.2 h1, idx_eq_ok.2 h2, res_bind_ok, res_bind_ok, h3, hj]

theorem edgeStartStep_to {e e' : UInt32 × UInt32} (he : EdgeTo cfg N P p l l' e e') (root int0 sp ep : Vec2 K)
    (ty : SuccTy) :
    List.Forall₂ (SuccTo cfg N P p l l') (edgeStartStep root int0 sp ep e ty).1 (edgeStartStep root int0 sp ep e' ty).1 ∧
      (edgeStartStep root int0 sp ep e' ty).2 = (edgeStartStep root int0 sp ep e ty).2 := by
  unfold edgeStartStep
  split
  · split
    · simp only
      split
      · exact ⟨.cons ⟨rfl, rfl, he⟩ .nil, rfl⟩
      · exact ⟨.nil, rfl⟩
    · exact ⟨.nil, rfl⟩
  · exact ⟨.nil, rfl⟩
  · split <;> exact ⟨.nil, rfl⟩

theorem edgeEndStep_to {e e' : UInt32 × UInt32} (he : EdgeTo cfg N P p l l' e e')
    (root int0 int1 sp ep : Vec2 K) (ty : SuccTy) :
    List.Forall₂ (SuccTo cfg N P p l l') (edgeEndStep root int0 int1 sp ep e ty).1
        (edgeEndStep root int0 int1 sp ep e' ty).1 ∧
      (edgeEndStep root int0 int1 sp ep e' ty).2 = (edgeEndStep root int0 int1 sp ep e ty).2 := by
  unfold edgeEndStep
  simp only
  split
  · split
    · exact ⟨.cons ⟨rfl, rfl, he⟩ (.cons ⟨rfl, rfl, he⟩ .nil), rfl⟩
    · exact ⟨.cons ⟨rfl, rfl, he⟩ .nil, rfl⟩
  · split <;> exact ⟨.cons ⟨rfl, rfl, he⟩ .nil, rfl⟩
  · exact ⟨.cons ⟨rfl, rfl, he⟩ .nil, rfl⟩

theorem edgesBetweenStep_to {n n' : SearchNode K} (hr : n'.root = n.root) (hi : n'.interval = n.interval)
    {e e' : UInt32 × UInt32} (he : EdgeTo cfg N P p l l' e e')
    {st st' : List (Successor K) × SuccTy} (hs : List.Forall₂ (SuccTo cfg N P p l l') st.1 st'.1 ∧ st'.2 = st.2) :
    RR (fun st st' => List.Forall₂ (SuccTo cfg N P p l l') st.1 st'.1 ∧ st'.2 = st.2) (edgesBetweenStep l n st e)
      (edgesBetweenStep l' n' st' e') := by
  unfold edgesBetweenStep
  obtain ⟨x, x', h1, h2, h3, -, -, -⟩ := he.1.1
  obtain ⟨y, y', k1, k2, k3, -, -, -⟩ := he.1.2
  have hlt : ∀ (a b n : Nat), a < n → b < n → ¬ max a b > n := by intro a b n; omega
  rw [if_neg (by rw [max_toNat]; exact hlt _ _ _ (lt_of_getElem? h1) (lt_of_getElem? k1)),
    if_neg (by rw [max_toNat]; exact hlt _ _ _ (lt_of_getElem? h2) (lt_of_getElem? k2)),
    idxUnchecked_eq_ok.2 h1, idxUnchecked_eq_ok.2 h2, idxUnchecked_eq_ok.2 k1, idxUnchecked_eq_ok.2 k2]
  simp only [res_bind_ok]
  rw [h3, k3, hs.2, hr, hi]
  obtain ⟨a1, a2⟩ := edgeStartStep_to he n.root n.interval.1 (x.coords + l.offset) (y.coords + l.offset) st.2
  have a3 := congrArg Prod.fst a2
  have a4 := congrArg Prod.snd a2
  rw [a3, a4]
  obtain ⟨b1, b2⟩ := edgeEndStep_to he n.root n.interval.1 n.interval.2
    (edgeStartStep n.root n.interval.1 (x.coords + l.offset) (y.coords + l.offset) e st.2).2.1
    (y.coords + l.offset) (edgeStartStep n.root n.interval.1 (x.coords + l.offset) (y.coords + l.offset) e st.2).2.2
  rw [b2]
  exact .ok ⟨List.rel_append (List.rel_append hs.1 a1) b1, rfl⟩

theorem NodeTo.root {n n' : SearchNode K} (h : NodeTo cfg N P π m m' n n') : n'.root = n.root := by rw [h.rest]
theorem NodeTo.interval {n n' : SearchNode K} (h : NodeTo cfg N P π m m' n n') : n'.interval = n.interval := by rw [h.rest]
theorem NodeTo.to {n n' : SearchNode K} (h : NodeTo cfg N P π m m' n n') : n'.polygonTo = π n.polygonTo := by rw [h.rest]
theorem NodeTo.from {n n' : SearchNode K} (h : NodeTo cfg N P π m m' n n') : n'.polygonFrom = π n.polygonFrom := by rw [h.rest]
theorem NodeTo.known {n n' : SearchNode K} (h : NodeTo cfg N P π m m' n n') :
    n'.distanceStartToRoot = n.distanceStartToRoot := by rw [h.rest]
theorem NodeTo.guess {n n' : SearchNode K} (h : NodeTo cfg N P π m m' n n') : n'.heuristic = n.heuristic := by rw [h.rest]
theorem NodeTo.pwl {n n' : SearchNode K} (h : NodeTo cfg N P π m m' n n') :
    n'.pathWithLayers = n.pathWithLayers := by rw [h.rest]
theorem NodeTo.path {n n' : SearchNode K} (h : NodeTo cfg N P π m m' n n') : n'.path = n.path := by rw [h.rest]

theorem edgesIndex_to {p' : Polygon} (hc : List.Forall₂ (CornerTo cfg N P l l') p.vertices p'.vertices) :
    RR (List.Forall₂ (EdgeTo cfg N P p l l')) p.edgesIndex p'.edgesIndex := by
  have h := edgesIndex_alike hc
  cases he : p.edgesIndex with
  | error e =>
    rw [he] at h
    revert h
    generalize p'.edgesIndex = r
    intro h
    cases h with
    | error e => exact .error e
  | ok es =>
    rw [he] at h
    revert h
    generalize p'.edgesIndex = r
    intro h
    cases h with
    | ok h => exact .ok (forall₂_withMem h fun e hm => (mem_edgesIndex he e.1 e.2).1 hm)

theorem circularEdges_to {p' : Polygon} (hc : List.Forall₂ (CornerTo cfg N P l l') p.vertices p'.vertices) (a b : Nat) :
    RR (List.Forall₂ (EdgeTo cfg N P p l l')) (p.circularEdgesIndex a b) (p'.circularEdgesIndex a b) := by
  unfold Polygon.circularEdgesIndex
  exact (edgesIndex_to hc).bind fun es es' h => .ok
    (List.forall₂_take _ (List.forall₂_drop _ (List.rel_append h h)))

theorem edgesBetween_to (hm : Renum cfg N π m m' B B' P) {n n' : SearchNode K} (hn : NodeTo cfg N P π m m' n n') :
    RR (fun s s' => ∃ l p l' p', HasPolygon m n.polygonTo l p ∧ HasPolygon m' (π n.polygonTo) l' p' ∧
        List.Forall₂ (SuccTo cfg N P p l l') s s')
      (edgesBetween m n) (edgesBetween m' n') := by
  obtain ⟨pl, pl', hpl, hpl', he⟩ := hn.edge
  obtain ⟨l, p, hp⟩ := hm.has _ hn.polygonTo
  obtain ⟨l', p', hp', -, hc⟩ := hm.polygon hn.polygonTo hp
  unfold edgesBetween
  rw [hn.to, hp.layer, hp'.layer, res_bind_ok, res_bind_ok, hp.poly, hp'.poly, res_bind_ok, res_bind_ok,
    idx_eq_ok.2 hpl, idx_eq_ok.2 hpl', res_bind_ok, res_bind_ok]
  obtain ⟨x, x', k1, k2, k3, -, -, -⟩ := he.2
  rw [idx_eq_ok.2 k1, idx_eq_ok.2 k2, res_bind_ok, res_bind_ok, k3, rightIndex_to hc]
  refine RR.bindEq fun ri => ?_
  rw [hc.length_eq]
  refine (circularEdges_to hc _ _).bind fun es es' hes => ?_
  have h0 : List.Forall₂ (SuccTo cfg N P p l l') (([], .rightNonObservable) : List (Successor K) × SuccTy).1
      (([], .rightNonObservable) : List (Successor K) × SuccTy).1 ∧
      (([], .rightNonObservable) : List (Successor K) × SuccTy).2 =
      (([], .rightNonObservable) : List (Successor K) × SuccTy).2 := ⟨.nil, rfl⟩
  refine (RR.foldlM (S := fun st st' => List.Forall₂ (SuccTo cfg N P p l l') st.1 st'.1 ∧ st'.2 = st.2) hes
    (fun e e' he st st' hs => edgesBetweenStep_to hn.root hn.interval he hs) h0).bind fun st st' hst => ?_
  exact .ok ⟨l, p, l', p', hp, hp', hst.1⟩

theorem addNode_to (hm : Renum cfg N π m m' B B' P) {i i' : Inst K} (hi : InstTo cfg N P π m m' B B' i i')
    (root : Vec2 K) {o : UInt32} (ho : P o) {l l' : Layer K} {n n' : SearchNode K} (hroot : n'.root = n.root)
    (hpwl : n'.pathWithLayers = n.pathWithLayers)
    (hpath : n'.path = n.path) (hknown : n'.distanceStartToRoot = n.distanceStartToRoot)
    (hto : n'.polygonTo = π n.polygonTo) (hhas : P n.polygonTo)
    (hl : m.layers[(layerOf n.polygonTo).toNat]? = some l)
    (hl' : m'.layers[(layerOf n'.polygonTo).toNat]? = some l') (s e : Vec2 K) {a b a' b' : UInt32}
    (ha : CornerTo cfg N P l l' a a') (hb : CornerTo cfg N P l l' b b') :
    RR (InstTo cfg N P π m m' B B') (i.addNode cfg m root o (s, a) (e, b) n)
      (i'.addNode cfg m' root (π o) (s, a') (e, b') n') := by
  have hd : newDistance cfg m' root n' = newDistance cfg m root n := by
    unfold newDistance
    rw [hroot, hknown, hto]
    split
    · rfl
    · split
      · rename_i hc
        rw [hm.layer hc]
        refine RR.eq ((RR.idx (hm.scale hc) _).bind fun x x' h => ?_)
        rw [h]
        exact .ok rfl
      · rfl
  have hu : newHeuristic cfg m' i'.goal root (s, a') (e, b') = newHeuristic cfg m i.goal root (s, a) (e, b) := by
    unfold newHeuristic
    rw [hi.goal]
    split
    · rename_i hc
      obtain ⟨-, -, -, -, -, -, -, ha⟩ := ha
      obtain ⟨-, -, -, -, -, -, -, hb⟩ := hb
      simp only
      rw [ha hc, hb hc]
      refine RR.eq ((RR.idx (hm.scale hc) _).bind fun x x' h => (RR.idx (hm.scale hc) _).bind fun y y' h' => ?_)
      rw [h, h']
      exact .ok rfl
    · rfl
  unfold Inst.addNode
  rw [hd, hu]
  refine RR.bindEq fun newF => RR.bindEq fun h => ?_
  rw [hi.rootHistory]
  have hnew : NodeTo cfg N P π m m'
      { path := if root.beq n.root then n.path else n.path ++ [root]
        pathWithLayers := newPathWithLayers cfg root o s e n
        root := root, interval := (s, e), edge := (a, b), polygonFrom := n.polygonTo, polygonTo := o
        previousPolygonLayer := layerOf n.polygonTo, distanceStartToRoot := newF, heuristic := h }
      { path := if root.beq n'.root then n'.path else n'.path ++ [root]
        pathWithLayers := newPathWithLayers cfg root (π o) s e n'
        root := root, interval := (s, e), edge := (a', b'), polygonFrom := n'.polygonTo, polygonTo := π o
        previousPolygonLayer := layerOf n'.polygonTo, distanceStartToRoot := newF, heuristic := h } := by
    refine ⟨?_, hhas, ho, l, l', hl, hl', ha, hb⟩
    have e1 : newPathWithLayers cfg root (π o) s e n' = newPathWithLayers cfg root o s e n := by
      unfold newPathWithLayers
      split
      · rename_i hc
        rw [hroot, hpwl, hto, hm.layer hc, hm.layer hc]
      · rfl
    rw [e1, hroot, hpath, hto]
  have hadd : InstTo cfg N P π m m' B B' { i with
      rootHistory := histSet i.rootHistory root newF
      nodeBuffer := i.nodeBuffer ++ [_] } { i' with
      rootHistory := histSet i.rootHistory root newF
      nodeBuffer := i'.nodeBuffer ++ [_] } :=
    ⟨rfl, hi.start, hi.goal, hi.polygonTo, hi.target, hi.blocked, hi.blocked', hi.queue,
      List.rel_append hi.nodeBuffer (.cons hnew .nil)⟩
  split
  · exact .ok hi
  · simp only
    split
    · split
      · exact .ok hi
      · exact .ok hadd
    · exact .ok hadd

theorem Renum.ne_iff (h : Renum cfg N π m m' B B' P) (a b : UInt32) : π a = π b ↔ a = b :=
  ⟨fun hh => h.injective hh, fun hh => by rw [hh]⟩

theorem Renum.max_iff (h : Renum cfg N π m m' B B' P) (a : UInt32) : π a = u32Max ↔ a = u32Max := by
  rw [← h.ne_iff a u32Max, h.outside]

theorem otherSideOf_has {x y : Vertex K} (hl : ∀ q ∈ x.polygons, q = u32Max ∨ P q) (cur : UInt32) :
    otherSideOf x y cur = u32Max ∨ P (otherSideOf x y cur) := by
  unfold otherSideOf
  cases hf : (List.find? (fun p => decide (p ≠ cur))
    (List.filter (fun i => decide (i ≠ u32Max) && y.polygons.contains i) x.polygons)) with
  | none => exact .inl rfl
  | some a =>
    have := List.mem_of_find?_eq_some hf
    exact hl a (List.mem_filter.1 this).1

theorem blocked_to (h : Renum cfg N π m m' B B' P) {q : UInt32} (hq : q = u32Max ∨ P q) :
    B'.contains (layerOf (π q)) = B.contains (layerOf q) := by
  rw [Bool.eq_iff_iff, List.contains_iff_mem, List.contains_iff_mem]
  exact h.blocked q hq

theorem successorRoot_to (h : Renum cfg N π m m' B B' P) {n n' : SearchNode K} (hn : NodeTo cfg N P π m m' n n') {l l' : Layer K}
    {x x' y y' : Vertex K} (hx : x'.coords + l'.offset = x.coords + l.offset)
    (hy : y'.coords + l'.offset = y.coords + l.offset) {s s' : Successor K} (hs : SuccTo cfg N P p l l' s s') :
    successorRoot m' B' n' l' x' y' s' = successorRoot m B n l x y s := by
  obtain ⟨pl, pl', hpl, hpl', he⟩ := hn.edge
  obtain ⟨u, u', a1, a2, a3, a4, a6, -⟩ := he.1
  obtain ⟨w, w', b1, b2, b3, b4, b6, -⟩ := he.2
  unfold successorRoot
  rw [hs.ty, hs.interval, hx, hy, hn.interval, hn.root, idx_eq_ok.2 hpl, idx_eq_ok.2 hpl']
  simp only [res_bind_ok]
  rw [idx_eq_ok.2 a1, idx_eq_ok.2 a2, idx_eq_ok.2 b1, idx_eq_ok.2 b2]
  simp only [res_bind_ok]
  rw [a3, b3, h.turn _ _ a4 a6, h.turn _ _ b4 b6]

/-- The one-way flag of a polygon. -/
theorem oneWay_to (h : Renum cfg N π m m' B B' P) {o : UInt32} (ho : P o) (f : Bool → Bool) :
    (do
      let l ← idx m'.layers (layerOf (π o)).toNat
      let p ← idx l.polygons (polygonOf (π o)).toNat
      .ok (f p.isOneWay) : Res Bool) = (do
      let l ← idx m.layers (layerOf o).toNat
      let p ← idx l.polygons (polygonOf o).toNat
      .ok (f p.isOneWay)) := by
  obtain ⟨l, p, hp⟩ := h.has _ ho
  obtain ⟨l', p', hp', hw, -⟩ := h.polygon ho hp
  rw [hp.layer, hp'.layer, res_bind_ok, res_bind_ok, hp.poly, hp'.poly, res_bind_ok, res_bind_ok, hw]

theorem expandOne_to (hm : Renum cfg N π m m' B B' P) {n n' : SearchNode K}
    (hn : NodeTo cfg N P π m m' n n') {l l' : Layer K} {p p' : Polygon} (hl : HasPolygon m n.polygonTo l p)
    (hl' : HasPolygon m' (π n.polygonTo) l' p') {s s' : Successor K} (hs : SuccTo cfg N P p l l' s s')
    {i i' : Inst K} (hi : InstTo cfg N P π m m' B B' i i') :
    RR (InstTo cfg N P π m m' B B') (expandOne cfg m n i s) (expandOne cfg m' n' i' s') := by
  obtain ⟨x, x', a1, a2, a3, a4, a6, -⟩ := hs.edge.1.1
  obtain ⟨y, y', b1, b2, b3, b4, b6, -⟩ := hs.edge.1.2
  have hhas := otherSideOf_has (y := y) a6 n.polygonTo
  unfold expandOne
  rw [hn.to, hl.layer, hl'.layer]
  simp only [res_bind_ok]
  rw [idxUnchecked_eq_ok.2 a1, idxUnchecked_eq_ok.2 a2, idxUnchecked_eq_ok.2 b1, idxUnchecked_eq_ok.2 b2]
  simp only [res_bind_ok]
  rw [hm.other _ _ _ _ _ _ _ _ _ hn.polygonTo hl hs.edge.2 a1 b1 a4 b4, hn.from, hi.blocked, hi.blocked', hi.polygonTo, successorRoot_to hm hn a3 b3 hs,
    hs.interval]
  revert hhas
  generalize otherSideOf x y n.polygonTo = o
  intro hhas
  rw [blocked_to hm hhas]
  by_cases hmax : o = u32Max
  · rw [if_pos hmax, if_pos ((hm.max_iff o).2 hmax)]
    exact .ok hi
  rw [if_neg hmax, if_neg (fun hc => hmax ((hm.max_iff o).1 hc))]
  have ho : P o := hhas.resolve_left hmax
  split
  · exact .ok hi
  have hdead : RR Eq (if i.polygonTo ≠ o then do
        let l ← idx m.layers (layerOf o).toNat
        let p ← idx l.polygons (polygonOf o).toNat
        .ok p.isOneWay
      else .ok false : Res Bool) (if π i.polygonTo ≠ π o then do
        let l ← idx m'.layers (layerOf (π o)).toNat
        let p ← idx l.polygons (polygonOf (π o)).toNat
        .ok p.isOneWay
      else .ok false : Res Bool) := by
    by_cases hd : i.polygonTo = o
    · rw [if_neg (not_not.2 hd), if_neg (by rw [hd]; exact fun h => h rfl)]
      exact .ok rfl
    · rw [if_pos hd, if_pos (fun hc => hd ((hm.ne_iff _ _).1 hc))]
      have := oneWay_to hm ho id
      simp only [id] at this
      rw [this]
      exact RR.refl _
  refine hdead.bind ?_
  rintro d _ rfl
  split
  · exact .ok hi
  by_cases hf : n.polygonFrom = o
  · rw [if_pos hf, if_pos (by rw [hf])]
    exact .ok hi
  rw [if_neg hf, if_neg (fun hc => hf ((hm.ne_iff _ _).1 hc))]
  refine RR.bindEq fun r => ?_
  cases r with
  | none => exact .ok hi
  | some root =>
    simp only
    split
    · exact .ok hi
    · exact addNode_to hm hi root ho hn.root hn.pwl hn.path hn.known hn.to hn.polygonTo
        (by rw [layerOf_toNat]; exact hl.1) (by rw [hn.to, layerOf_toNat]; exact hl'.1) _ _ hs.edge.1.1 hs.edge.1.2

theorem isReverse_to (hm : Renum cfg N π m m' B B' P) {n n' k k' : SearchNode K} (hn : NodeTo cfg N P π m m' n n')
    (hk : NodeTo cfg N P π m m' k k') : isReverse n' k' = isReverse n k := by
  unfold isReverse
  rw [hn.root, hk.root, hn.to, hn.from, hk.to, hk.from, hn.interval, hk.interval]
  have : ∀ a b : UInt32, (π a == π b) = (a == b) := by
    intro a b
    rw [Bool.eq_iff_iff, beq_iff_eq, beq_iff_eq]
    exact hm.ne_iff a b
  rw [this, this]

theorem successorsLoop_to (hm : Renum cfg N π m m' B B' P) :
    ∀ (fuel : Nat) (visited : List UInt32)
    {n n' : SearchNode K} (_ : NodeTo cfg N P π m m' n n') {i i' : Inst K} (_ : InstTo cfg N P π m m' B B' i i'),
    RR (InstTo cfg N P π m m' B B') (successorsLoop cfg m fuel visited n i)
      (successorsLoop cfg m' fuel (visited.map π) n' i') := by
  intro fuel
  induction fuel with
  | zero => intro visited n n' _ i i' _; exact .error _
  | succ fuel ih =>
    intro visited n n' hn i i' hi
    simp only [successorsLoop]
    refine (edgesBetween_to hm hn).bind ?_
    rintro succs succs' ⟨l, p, l', p', hl, hl', hs⟩
    refine (RR.foldlM hs (fun s s' hs i i' hi => expandOne_to hm hn hl hl' hs hi) hi).bind fun i i' hi => ?_
    have hb := hi.nodeBuffer
    have hp : i'.polygonTo = π i.polygonTo := hi.polygonTo
    have hclear : InstTo cfg N P π m m' B B' { i with nodeBuffer := [] } { i' with nodeBuffer := [] } :=
      ⟨hi.rootHistory, hi.start, hi.goal, hi.polygonTo, hi.target, hi.blocked, hi.blocked', hi.queue, .nil⟩
    rw [hp] at hclear
    revert hb
    generalize i.nodeBuffer = b
    generalize i'.nodeBuffer = b'
    intro hb
    cases hb with
    | nil => exact .ok hi
    | @cons k k' ks ks' hk hks =>
      cases hks with
      | cons h1 h2 => exact .ok hi
      | nil =>
        simp only
        rw [hk.to, hp, isReverse_to hm hk hn]
        have hv : (visited.map π).contains (π k.polygonTo) = visited.contains k.polygonTo := by
          rw [Bool.eq_iff_iff, List.contains_iff_mem, List.contains_iff_mem]
          exact List.mem_map_of_injective hm.injective
        rw [hv]
        by_cases hg : k.polygonTo = i.polygonTo
        · rw [if_neg (not_not.2 hg), if_neg (by rw [hg]; exact fun h => h rfl)]
          exact .ok hi
        · rw [if_pos hg, if_pos (fun hc => hg ((hm.ne_iff _ _).1 hc))]
          split
          · exact .ok hclear
          · split
            · exact .ok hclear
            · exact ih (k.polygonTo :: visited) hk hclear

theorem flushNodes_to {i i' : Inst K} (hi : InstTo cfg N P π m m' B B' i i') :
    InstTo cfg N P π m m' B B' i.flushNodes i'.flushNodes :=
  ⟨hi.rootHistory, hi.start, hi.goal, hi.polygonTo, hi.target, hi.blocked, hi.blocked',
    List.rel_append hi.queue hi.nodeBuffer, .nil⟩

theorem successors_to (hm : Renum cfg N π m m' B B' P) {n n' : SearchNode K}
    (hn : NodeTo cfg N P π m m' n n') {i i' : Inst K} (hi : InstTo cfg N P π m m' B B' i i') :
    RR (InstTo cfg N P π m m' B B') (i.successors cfg m n) (i'.successors cfg m' n') := by
  unfold Inst.successors
  exact (successorsLoop_to hm _ [] hn hi).bind fun i i' hi => .ok (flushNodes_to hi)

theorem setupEdge_to (hm : Renum cfg N π m m' B B' P) {a b : Vec2 K}
    {s t : UInt32} (hs : P s) (ht : P t) {l l' : Layer K} {p p' : Polygon} (hl : HasPolygon m s l p)
    (hl' : HasPolygon m' (π s) l' p')
    {e e' : UInt32 × UInt32} (he : EdgeTo cfg N P p l l' e e') {i i' : Inst K} (hi : InstTo cfg N P π m m' B B' i i') :
    RR (InstTo cfg N P π m m' B B') (setupEdge cfg m l (a, s) (b, t) (emptyNode (a, s)) i e)
      (setupEdge cfg m' l' (a, π s) (b, π t) (emptyNode (a, π s)) i' e') := by
  obtain ⟨x, x', a1, a2, a3, a4, a6, -⟩ := he.1.1
  obtain ⟨y, y', b1, b2, b3, b4, b6, -⟩ := he.1.2
  have hhas := otherSideOf_has (y := y) a6 s
  unfold setupEdge
  rw [a1, a2, b1, b2]
  simp only
  rw [hm.other _ _ _ _ _ _ _ _ _ hs hl he.2 a1 b1 a4 b4, hi.blocked, hi.blocked', a3, b3]
  revert hhas
  generalize otherSideOf x y s = o
  intro hhas
  rw [blocked_to hm hhas]
  split
  · exact .ok hi
  have hgo : RR (fun g g' => g = g' ∧ (g = true → P o)) (if o = t then .ok true
        else if o = u32Max then .ok false
        else do
          let l ← idx m.layers (layerOf o).toNat
          let p ← idx l.polygons (polygonOf o).toNat
          .ok (!p.isOneWay) : Res Bool) (if π o = π t then .ok true
        else if π o = u32Max then .ok false
        else do
          let l ← idx m'.layers (layerOf (π o)).toNat
          let p ← idx l.polygons (polygonOf (π o)).toNat
          .ok (!p.isOneWay) : Res Bool) := by
    by_cases h1 : o = t
    · rw [if_pos h1, if_pos (by rw [h1])]
      exact .ok ⟨rfl, fun _ => h1 ▸ ht⟩
    rw [if_neg h1, if_neg (fun hc => h1 ((hm.ne_iff _ _).1 hc))]
    by_cases h2 : o = u32Max
    · rw [if_pos h2, if_pos ((hm.max_iff o).2 h2)]
      exact .ok ⟨rfl, fun h => by cases h⟩
    rw [if_neg h2, if_neg (fun hc => h2 ((hm.max_iff o).1 hc))]
    have ho := hhas.resolve_left h2
    rw [oneWay_to hm ho not]
    cases (do
      let l ← idx m.layers (layerOf o).toNat
      let p ← idx l.polygons (polygonOf o).toNat
      .ok (!p.isOneWay) : Res Bool) with
    | ok g => exact .ok ⟨rfl, fun _ => ho⟩
    | error e => exact .error e
  refine hgo.bind ?_
  rintro d _ ⟨rfl, hg⟩
  split
  · rename_i hd
    exact addNode_to hm hi a (hg hd) (n := emptyNode (a, s)) (n' := emptyNode (a, π s)) rfl rfl rfl rfl rfl hs
      (by show m.layers[(layerOf s).toNat]? = _; rw [layerOf_toNat]; exact hl.1)
      (by show m'.layers[(layerOf (π s)).toNat]? = _; rw [layerOf_toNat]; exact hl'.1) _ _ he.1.1 he.1.2
  · exact .ok hi

theorem setup_to (hm : Renum cfg N π m m' B B' P) (a b : Vec2 K)
    {s t : UInt32} (hs : P s) (ht : P t) :
    RR (InstTo cfg N P π m m' B B') (Inst.setup cfg m (a, s) (b, t) B) (Inst.setup cfg m' (a, π s) (b, π t) B') := by
  obtain ⟨l, p, hp⟩ := hm.has _ hs
  obtain ⟨l', p', hp', -, hc⟩ := hm.polygon hs hp
  unfold Inst.setup
  simp only
  rw [hp.layer, hp'.layer, res_bind_ok, res_bind_ok, hp.poly, hp'.poly, res_bind_ok, res_bind_ok]
  refine (edgesIndex_to hc).bind fun es es' hes => ?_
  refine (RR.foldlM hes (fun e e' he i i' hi => setupEdge_to hm hs ht hp hp' he hi) ?_).bind
    fun i i' hi => .ok (flushNodes_to hi)
  exact ⟨rfl, fun hc => by rw [hm.layer hc], rfl, rfl, ht, rfl, rfl, .nil, .nil⟩

theorem foundPath_to (hm : Renum cfg N π m m' B B' P) {i i' : Inst K} (hi : InstTo cfg N P π m m' B B' i i')
    {n n' : SearchNode K} (hn : NodeTo cfg N P π m m' n n') : foundPath cfg m' i' n' = foundPath cfg m i n := by
  have he : (pathEnd i' n').map (·.1) = (pathEnd i n).map (·.1) := by
    unfold pathEnd
    rw [hn.root, hn.interval, hi.goal]
    cases turningPoint n.root i.goal n.interval <;> rfl
  unfold foundPath
  simp only [he]
  rw [hn.path, hn.known, hn.guess]
  split
  · rename_i hc
    have he' : pathEnd i' n' = pathEnd i n := by
      unfold pathEnd
      rw [hn.root, hn.interval, hi.goal, hn.to, hm.layer hc]
    have hd : ∀ (ps : List (Vec2 K × UInt8)) acc cur, detailedLength m' acc cur ps = detailedLength m acc cur ps := by
      intro ps
      induction ps with
      | nil => intros; rfl
      | cons p ps ih =>
        intro acc cur
        simp only [detailedLength, ih]
        refine RR.eq ((RR.idx (hm.scale hc) _).bind fun x x' h => ?_)
        rw [h]
        exact RR.refl _
    simp only [hd]
    rw [he', hn.pwl, hi.start hc, hi.goal]
  · rfl

theorem next_to {heap : Heap K} (hh : heap.ByCost)
    (hm : Renum cfg N π m m' B B' P) {i i' : Inst K} (hi : InstTo cfg N P π m m' B B' i i') :
    RR (fun r r' => r'.1 = r.1 ∧ InstTo cfg N P π m m' B B' r.2 r'.2) (i.next heap cfg m) (i'.next heap cfg m') := by
  unfold Inst.next
  rcases hh (NodeTo cfg N P π m m') (fun n n' h => ⟨h.known, h.guess⟩) _ _ hi.queue with
    ⟨h1, h2⟩ | ⟨n, r, n', r', h1, h2, hn, hr⟩
  · rw [h1, h2]
    exact .ok ⟨rfl, hi⟩
  · rw [h1, h2]
    simp only
    have hi2 : InstTo cfg N P π m m' B B' { i with queue := r } { i' with queue := r' } :=
      ⟨hi.rootHistory, hi.start, hi.goal, hi.polygonTo, hi.target, hi.blocked, hi.blocked', hr, hi.nodeBuffer⟩
    have hdom : isDominated { i' with queue := r' } n' = isDominated { i with queue := r } n := by
      unfold isDominated
      rw [hn.root, hn.known, show i'.rootHistory = i.rootHistory from hi.rootHistory]
    rw [hdom, foundPath_to hm hi2 hn, hn.to]
    split
    · exact .ok ⟨rfl, hi2⟩
    by_cases hg : n.polygonTo = i.polygonTo
    · rw [if_pos hg, if_pos (by rw [hg, hi.polygonTo])]
      exact RR.bindEq fun p => .ok ⟨rfl, hi2⟩
    · rw [if_neg hg, if_neg (by rw [hi.polygonTo]; exact fun hc => hg ((hm.ne_iff _ _).1 hc))]
      exact (successors_to hm hn hi2).bind fun i i' hi => .ok ⟨rfl, hi⟩

theorem searchLoop_to {heap : Heap K} (hh : heap.ByCost)
    (hm : Renum cfg N π m m' B B' P) : ∀ (n : Nat) {i i' : Inst K}
    (_ : InstTo cfg N P π m m' B B' i i') (ps : List (Path K)),
    searchLoop heap cfg m' n i' ps = searchLoop heap cfg m n i ps := by
  intro n
  induction n with
  | zero => intros; rw [searchLoop, searchLoop]
  | succ n ih =>
    intro i i' hi ps
    rw [searchLoop_succ, searchLoop_succ]
    refine RR.eq ((next_to hh hm hi).bind ?_)
    rintro ⟨step, j⟩ ⟨step', j'⟩ ⟨rfl, hj⟩
    have : ∀ ps, searchLoop heap cfg m' n j' ps = searchLoop heap cfg m n j ps := fun ps => ih hj ps
    simp only
    unfold afterStep
    split
    · rw [this]; exact RR.refl _
    · split <;> · rw [this]; exact RR.refl _
    · rw [this]; exact RR.refl _

/-- Queries between known polygons give the same answers, when the island tests do. -/
theorem pathBetween_to {heap : Heap K} (hh : heap.ByCost)
    (hm : Renum cfg N π m m' B B' P) (hcount : m'.stepBudget = m.stepBudget) (a b : Vec2 K) {s e : UInt32} (hs : P s) (he : P e)
    (hisl : m'.islandsDiffer (π s) (π e) = m.islandsDiffer s e) :
    m'.pathBetween heap cfg a b (π s) (π e) B' = m.pathBetween heap cfg a b s e B := by
  rw [pathBetween_eq, pathBetween_eq, hisl, hcount]
  congr 1
  funext d
  unfold afterIslands
  split
  · rfl
  by_cases h : s = e
  · rw [if_pos h, if_pos (by rw [h])]
    split
    · rename_i hc
      rw [hm.layer hc]
    · rfl
  rw [if_neg h, if_neg (fun hc => h ((hm.ne_iff _ _).1 hc))]
  refine RR.eq ((setup_to hm a b hs he).bind fun i i' hi => ?_)
  simp only
  rw [searchLoop_to hh hm _ hi]
  exact RR.refl _

theorem Mesh.NoIslands.differ (h : m.NoIslands) {s e : UInt32} (hs : m.Has s) : m.islandsDiffer s e = .ok false := by
  obtain ⟨l, p, hp⟩ := hs
  unfold Mesh.islandsDiffer
  rw [hp.layer, res_bind_ok, h l (List.mem_of_getElem? hp.1)]
  split <;> rfl

theorem pollSteps_to {heap : Heap K} (hh : heap.ByCost)
    (hm : Renum cfg N π m m' B B' P) : ∀ (n : Nat) {i i' : Inst K} (_ : InstTo cfg N P π m m' B B' i i'),
    RR (fun r r' => r'.1 = r.1 ∧ InstTo cfg N P π m m' B B' r.2 r'.2) (pollSteps heap cfg m n i)
      (pollSteps heap cfg m' n i') := by
  intro n
  induction n with
  | zero => intro i i' hi; exact .ok ⟨rfl, hi⟩
  | succ n ih =>
    intro i i' hi
    simp only [pollSteps]
    refine (next_to hh hm hi).bind ?_
    rintro ⟨step, j⟩ ⟨step', j'⟩ ⟨rfl, hj⟩
    cases step' with
    | found p => exact .ok ⟨rfl, hj⟩
    | notFound => exact .ok ⟨rfl, hj⟩
    | «continue» => exact ih hj

/-- Futures from `a` to `b` whose searches correspond. -/
structure FutureTo (cfg : Cfg) (N : Vertex K → Vertex K → Prop) (P : UInt32 → Prop) (π : UInt32 → UInt32) (m m' : Mesh K) (a b : Vec2 K) (f f' : FuturePath K) : Prop where
  src : f.src = a
  dst : f.dst = b
  src' : f'.src = a
  dst' : f'.dst = b
  inst : (f.instance? = none ∧ f'.instance? = none) ∨
    ∃ i i', f.instance? = some i ∧ f'.instance? = some i' ∧ InstTo cfg N P π m m' [] [] i i'

theorem Mesh.NoIslands.differAsync (h : m.NoIslands) {s e : UInt32} (hs : m.Has s) :
    m.islandsDifferAsync s e = .ok false := by
  obtain ⟨l, p, hp⟩ := hs
  unfold Mesh.islandsDifferAsync
  rw [hp.layer, res_bind_ok, h l (List.mem_of_getElem? hp.1)]
  split <;> rfl

theorem Renum.has' (hm : Renum cfg N π m m' B B' P) {s : UInt32} (hs : P s) : m'.Has (π s) := by
  obtain ⟨l, p, hp⟩ := hm.has _ hs
  obtain ⟨l', p', hp', -⟩ := hm.polygon hs hp
  exact ⟨l', p', hp'⟩

theorem poll_to {bvh bvh' : Bvh K} {heap : Heap K} (hh : heap.ByCost)
    (hm : Renum cfg N π m m' [] [] P) (hi : m.NoIslands) (hi' : m'.NoIslands) {a b : Vec2 K} {s e : UInt32}
    (hs : P s) (he : P e)
    (hsrc : m.getPointLocation bvh (Coords.onMesh a) = .ok s)
    (hdst : m.getPointLocation bvh (Coords.onMesh b) = .ok e)
    (hsrc' : m'.getPointLocation bvh' (Coords.onMesh a) = .ok (π s))
    (hdst' : m'.getPointLocation bvh' (Coords.onMesh b) = .ok (π e))
    {f f' : FuturePath K} (hf : FutureTo cfg N P π m m' a b f f') :
    RR (fun r r' => r'.1 = r.1 ∧ FutureTo cfg N P π m m' a b r.2 r'.2) (f.poll bvh heap cfg m)
      (f'.poll bvh' heap cfg m') := by
  unfold FuturePath.poll
  rcases hf.inst with ⟨h1, h2⟩ | ⟨i, i', h1, h2, hii⟩
  · rw [h1, h2]
    simp only
    rw [hf.src, hf.src', hf.dst, hf.dst', hsrc, hsrc', res_bind_ok, res_bind_ok]
    by_cases k1 : s = u32Max
    · rw [if_pos k1, if_pos ((hm.max_iff s).2 k1)]
      exact .ok ⟨rfl, hf⟩
    rw [if_neg k1, if_neg (fun hc => k1 ((hm.max_iff s).1 hc)), hdst, hdst', res_bind_ok, res_bind_ok]
    by_cases k2 : e = u32Max
    · rw [if_pos k2, if_pos ((hm.max_iff e).2 k2)]
      exact .ok ⟨rfl, hf⟩
    rw [if_neg k2, if_neg (fun hc => k2 ((hm.max_iff e).1 hc)), hi.differAsync (hm.has _ hs), hi'.differAsync (hm.has' hs),
      res_bind_ok, res_bind_ok, if_neg Bool.false_ne_true, if_neg Bool.false_ne_true]
    by_cases k3 : s = e
    · rw [if_pos k3, if_pos (congrArg π k3)]
      split
      · rename_i hc
        rw [hm.layer hc]
        exact .ok ⟨rfl, hf⟩
      · exact .ok ⟨rfl, hf⟩
    rw [if_neg k3, if_neg (fun hc => k3 ((hm.ne_iff _ _).1 hc))]
    exact (setup_to hm a b hs he).bind fun i i' hi =>
      .ok ⟨rfl, rfl, rfl, rfl, rfl, .inr ⟨_, _, rfl, rfl, hi⟩⟩
  · rw [h1, h2]
    simp only
    refine (pollSteps_to hh hm 3 hii).bind ?_
    rintro ⟨r, j⟩ ⟨r', j'⟩ ⟨hr, hj⟩
    simp only at hr
    subst hr
    have hff : FutureTo cfg N P π m m' a b { f with instance? := some j } { f' with instance? := some j' } :=
      ⟨hf.src, hf.dst, hf.src', hf.dst', .inr ⟨_, _, rfl, rfl, hj⟩⟩
    cases r' with
    | some p => exact .ok ⟨rfl, hff⟩
    | none => exact .ok ⟨rfl, hff⟩

/-! ### The same polygons in the same order -/

theorem SamePolygons.ne_iff (h : SamePolygons π m m') (a b : UInt32) : π a = π b ↔ a = b :=
  ⟨fun hh => h.injective hh, fun hh => by rw [hh]⟩

theorem SamePolygons.max_iff (h : SamePolygons π m m') (a : UInt32) : π a = u32Max ↔ a = u32Max := by
  rw [← h.ne_iff a u32Max, h.outside]

theorem SamePolygons.blocked_same (h : SamePolygons π m m') (hB : BlockedAs π m B B') {q : UInt32}
    (hq : q = u32Max ∨ m.Has q) : B'.contains (layerOf (π q)) = B.contains (layerOf q) := by
  rw [Bool.eq_iff_iff, List.contains_iff_mem, List.contains_iff_mem]
  rcases hq with rfl | hq
  · rw [h.outside]
    exact hB.outside
  · exact hB.polygon q hq

theorem find_map (h : SamePolygons π m m') (q : List UInt32) (cur : UInt32) : ∀ p : List UInt32,
    (((p.map π).filter (fun i => i ≠ u32Max && (q.map π).contains i)).find? (fun x => x ≠ π cur)) =
      ((p.filter (fun i => i ≠ u32Max && q.contains i)).find? (fun x => x ≠ cur)).map π := by
  intro p
  induction p with
  | nil => rfl
  | cons a p ih =>
    rw [List.map_cons, List.filter_cons, List.filter_cons]
    have hc : (π a ≠ u32Max && (q.map π).contains (π a)) = (a ≠ u32Max && q.contains a) := by
      have h1 : decide (π a ≠ u32Max) = decide (a ≠ u32Max) := by
        rw [decide_eq_decide]; exact not_congr (h.max_iff a)
      have h2 : (q.map π).contains (π a) = q.contains a := by
        rw [Bool.eq_iff_iff, List.contains_iff_mem, List.contains_iff_mem]
        exact List.mem_map_of_injective h.injective
      rw [h1, h2]
    rw [hc]
    split
    · rw [List.find?_cons, List.find?_cons]
      have h3 : decide (π a ≠ π cur) = decide (a ≠ cur) := by
        rw [decide_eq_decide]; exact not_congr (h.ne_iff a cur)
      rw [h3]
      cases decide (a ≠ cur) with
      | true => rfl
      | false => exact ih
    · exact ih

theorem otherSideOf_to (h : SamePolygons π m m') {x x' y y' : Vertex K} (hx : x'.polygons = x.polygons.map π)
    (hy : y'.polygons = y.polygons.map π) (cur : UInt32) :
    otherSideOf x' y' (π cur) = π (otherSideOf x y cur) := by
  unfold otherSideOf
  rw [hx, hy, find_map h]
  cases (List.find? (fun p => decide (p ≠ cur))
    (List.filter (fun i => decide (i ≠ u32Max) && y.polygons.contains i) x.polygons)) with
  | none => exact h.outside.symm
  | some a => rfl

theorem canTurnAt_to (h : SamePolygons π m m') (hB : BlockedAs π m B B') {x x' : Vertex K} (hx : x'.polygons = x.polygons.map π)
    (hc : x'.isCorner = x.isCorner) (hl : ∀ q ∈ x.polygons, q = u32Max ∨ m.Has q) :
    canTurnAt B' x' = canTurnAt B x := by
  unfold canTurnAt
  rw [hx, hc]
  have h1 : B'.isEmpty = B.isEmpty := by
    rw [Bool.eq_iff_iff, List.isEmpty_iff, List.isEmpty_iff]
    exact hB.any.symm
  have h2 : ∀ ps : List UInt32, (∀ q ∈ ps, q = u32Max ∨ m.Has q) →
      (ps.map π).any (fun p => p == u32Max || B'.contains (layerOf p)) =
        ps.any (fun p => p == u32Max || B.contains (layerOf p)) := by
    intro ps
    induction ps with
    | nil => intro _; rfl
    | cons a ps ih =>
      intro hps
      rw [List.map_cons, List.any_cons, List.any_cons, ih fun q hq => hps q (List.mem_cons_of_mem _ hq),
        h.blocked_same hB (hps a (List.mem_cons_self ..))]
      have : (π a == u32Max) = (a == u32Max) := by
        rw [Bool.eq_iff_iff, beq_iff_eq, beq_iff_eq]
        exact h.max_iff a
      rw [this]
  rw [h1, h2 _ hl]


/-- Corners of C69: the same polygons in the same order, and the same corner flag. -/
def ListsAs (π : UInt32 → UInt32) (x x' : Vertex K) : Prop :=
  x'.polygons = x.polygons.map π ∧ x'.isCorner = x.isCorner

theorem SamePolygons.renum (h : SamePolygons π m m') (hl : m.ListsPolygons) (hB : BlockedAs π m B B')
    (hd : cfg.detailed = true → (∀ q, layerOf (π q) = layerOf q) ∧ SameScales m m' ∧ m.SmallNumbers ∧ m'.SmallNumbers) :
    Renum cfg (ListsAs π) π m m' B B' m.Has where
  injective := h.injective
  outside := h.outside
  has := fun _ h => h
  polygons := by
    intro id l p _ hp
    obtain ⟨l', p', hp', h1, h2⟩ := h.polygons id l p hp
    refine ⟨l', p', hp', h1, (forall₂_withBoth h2).imp ?_⟩
    rintro v v' ⟨⟨x, x', a1, a2, a3, a4, a5⟩, hv, hv'⟩
    refine ⟨x, x', a1, a2, a3, ⟨a4, a5⟩, fun hc => ?_⟩
    obtain ⟨-, -, k, k'⟩ := hd hc
    rw [layerOf_lt24 (k l (List.mem_of_getElem? hp.1) p (List.mem_of_getElem? hp.2) v hv),
      layerOf_lt24 (k' l' (List.mem_of_getElem? hp'.1) p' (List.mem_of_getElem? hp'.2) v' hv')]
  layer := fun hc => (hd hc).1
  scale := fun hc => (hd hc).2.1
  lists := fun id l p _ => hl id l p
  blocked := by
    rintro q (rfl | hq)
    · rw [h.outside]
      exact hB.outside
    · exact hB.polygon q hq
  turn := fun x x' hx hq => canTurnAt_to h hB hx.1 hx.2 hq
  other := fun id _ _ _ _ x y x' y' _ _ _ _ _ hx hy => otherSideOf_to h hx.1 hy.1 id

end Polyanya
