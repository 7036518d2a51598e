import Verif.Spec.Alike
import Verif.Proofs.CutOff
/-
Searches in meshes that differ in the numbering of their vertices.
-/

namespace Polyanya

set_option linter.unusedSectionVars false

variable {K : Type} [Scalar K]

/-- Both computations fault alike, or end in related results. -/
inductive RR {α β : Type} (R : α → β → Prop) : Res α → Res β → Prop where
  | ok {a : α} {b : β} : R a b → RR R (.ok a) (.ok b)
  | error (e : Fault) : RR R (.error e) (.error e)

section RR
variable {α β γ δ : Type} {R : α → β → Prop} {S : γ → δ → Prop}

theorem RR.bind {x : Res α} {y : Res β} {f : α → Res γ} {g : β → Res δ} (h : RR R x y)
    (hfg : ∀ a b, R a b → RR S (f a) (g b)) : RR S (x >>= f) (y >>= g) := by
  cases h with
  | ok h => exact hfg _ _ h
  | error e => exact .error e

theorem RR.bindEq {x : Res α} {f : α → Res γ} {g : α → Res δ} (hfg : ∀ a, RR S (f a) (g a)) :
    RR S (x >>= f) (x >>= g) := by
  cases x with
  | ok a => exact hfg a
  | error e => exact .error e

theorem RR.eq {x y : Res α} (h : RR Eq x y) : y = x := by
  cases h with
  | ok h => rw [h]
  | error e => rfl

theorem RR.listEq {x y : Res (List α)} (h : RR (List.Forall₂ Eq) x y) : y = x := by
  cases h with
  | ok h => rw [List.forall₂_eq_eq_eq] at h; rw [h]
  | error e => rfl

theorem RR.refl (x : Res α) : RR Eq x x := by
  cases x with
  | ok a => exact .ok rfl
  | error e => exact .error e

theorem RR.idx {l : List α} {l' : List β} (h : List.Forall₂ R l l') (i : Nat) : RR R (idx l i) (idx l' i) := by
  unfold Polyanya.idx
  by_cases hi : i < l.length
  · have hi' : i < l'.length := h.length_eq ▸ hi
    rw [List.getElem?_eq_getElem hi, List.getElem?_eq_getElem hi']
    exact .ok (List.Forall₂.get h hi hi')
  · rw [List.getElem?_eq_none (by omega), List.getElem?_eq_none (by rw [← h.length_eq]; omega)]
    exact .error _

theorem RR.mapM {f : α → Res γ} {g : β → Res δ} {l : List α} {l' : List β} (h : List.Forall₂ R l l')
    (hfg : ∀ a b, R a b → RR S (f a) (g b)) : RR (List.Forall₂ S) (l.mapM f) (l'.mapM g) := by
  induction h with
  | nil => exact .ok .nil
  | cons hab _ ih =>
    rw [List.mapM_cons, List.mapM_cons]
    exact (hfg _ _ hab).bind fun a b hab => ih.bind fun as bs h => .ok (.cons hab h)

theorem RR.foldlM {f : γ → α → Res γ} {g : δ → β → Res δ} {l : List α} {l' : List β} (h : List.Forall₂ R l l')
    (hfg : ∀ a b, R a b → ∀ c d, S c d → RR S (f c a) (g d b)) : ∀ {c : γ} {d : δ}, S c d →
    RR S (l.foldlM f c) (l'.foldlM g d) := by
  induction h with
  | nil => intro c d hcd; exact .ok hcd
  | cons hab _ ih =>
    intro c d hcd
    rw [List.foldlM_cons, List.foldlM_cons]
    exact (hfg _ _ hab _ _ hcd).bind fun c d hcd => ih hcd

theorem findFirst_alike {f : α → Res (Option γ)} {g : β → Res (Option γ)} {l : List α} {l' : List β}
    (h : List.Forall₂ R l l') (hfg : ∀ a b, R a b → g b = f a) : findFirst g l' = findFirst f l := by
  induction h with
  | nil => rfl
  | cons hab _ ih => simp only [findFirst, hfg _ _ hab, ih]

theorem forall₂_zipIdx {l : List α} {l' : List β} (h : List.Forall₂ R l l') : ∀ (n : Nat),
    List.Forall₂ (fun a b => R a.1 b.1 ∧ b.2 = a.2) (l.zipIdx n) (l'.zipIdx n) := by
  induction h with
  | nil => intro n; exact .nil
  | cons hab _ ih => intro n; rw [List.zipIdx_cons, List.zipIdx_cons]; exact .cons ⟨hab, rfl⟩ (ih _)

theorem forall₂_zip {l : List α} {l' : List β} {k : List γ} {k' : List δ} (h : List.Forall₂ R l l')
    (hk : List.Forall₂ S k k') :
    List.Forall₂ (fun a b => R a.1 b.1 ∧ S a.2 b.2) (l.zip k) (l'.zip k') := by
  induction h generalizing k k' with
  | nil => simp
  | cons hab _ ih =>
    cases hk with
    | nil => simp
    | cons hcd hk => rw [List.zip_cons_cons, List.zip_cons_cons]; exact .cons ⟨hab, hcd⟩ (ih hk)

end RR

/-- The relation on edges given by a relation on their ends. -/
def OnEnds (C : UInt32 → UInt32 → Prop) (e e' : UInt32 × UInt32) : Prop := C e.1 e'.1 ∧ C e.2 e'.2

theorem edgesIndex_alike {C : UInt32 → UInt32 → Prop} {p p' : Polygon} (h : List.Forall₂ C p.vertices p'.vertices) :
    RR (List.Forall₂ (OnEnds C)) p.edgesIndex p'.edgesIndex := by
  obtain ⟨vs, ow⟩ := p
  obtain ⟨vs', ow'⟩ := p'
  unfold Polygon.edgesIndex
  simp only at h ⊢
  cases h with
  | nil => exact .error _
  | @cons v v' vs vs' hv hvs =>
    refine .ok ?_
    have h0 : List.Forall₂ C (v :: vs) (v' :: vs') := .cons hv hvs
    have hl : C ((v :: vs).getLast (by simp)) ((v' :: vs').getLast (by simp)) := by
      rw [List.getLast_eq_getElem, List.getLast_eq_getElem]
      have := List.Forall₂.get h0 (i := vs.length) (by simp) (by simp [hvs.length_eq])
      simpa [hvs.length_eq] using this
    have hz : List.Forall₂ (OnEnds C) (windows2 (v :: vs)) (windows2 (v' :: vs')) := forall₂_zip h0 hvs
    exact List.rel_append hz (.cons ⟨hl, hv⟩ .nil)

theorem circularEdgesIndex_alike {C : UInt32 → UInt32 → Prop} {p p' : Polygon}
    (h : List.Forall₂ C p.vertices p'.vertices) (a b : Nat) :
    RR (List.Forall₂ (OnEnds C)) (p.circularEdgesIndex a b) (p'.circularEdgesIndex a b) := by
  unfold Polygon.circularEdgesIndex
  exact (edgesIndex_alike h).bind fun es es' h => .ok
    (List.forall₂_take _ (List.forall₂_drop _ (List.rel_append h h)))

/-- Corners that the search treats alike. -/
def CornerAlike (cfg : Cfg) (l l' : Layer K) (v v' : UInt32) : Prop :=
  SameCorner l l' v v' ∧ (cfg.detailed = true → layerOf v' = layerOf v)

/-- Layers that the search treats alike. -/
structure LayerAlike (cfg : Cfg) (l l' : Layer K) : Prop where
  polygons : List.Forall₂ (fun p p' => p'.isOneWay = p.isOneWay ∧
    List.Forall₂ (CornerAlike cfg l l') p.vertices p'.vertices) l.polygons l'.polygons
  scale : l'.scale = l.scale
  islands : l'.islands = l.islands

/-- Successors that differ in the numbers of their vertices. -/
structure SuccAlike (cfg : Cfg) (l l' : Layer K) (s s' : Successor K) : Prop where
  interval : s'.interval = s.interval
  ty : s'.ty = s.ty
  edge : OnEnds (CornerAlike cfg l l') s.edge s'.edge

/-- Nodes that differ in the numbers of the vertices of their edge. -/
structure NodeAlike (cfg : Cfg) (m m' : Mesh K) (n n' : SearchNode K) : Prop where
  rest : n' = { n with edge := n'.edge }
  edge : ∃ l l', m.layers[n.previousPolygonLayer.toNat]? = some l ∧ m'.layers[n.previousPolygonLayer.toNat]? = some l' ∧
    OnEnds (CornerAlike cfg l l') n.edge n'.edge

/-- Instances whose nodes differ in the numbers of the vertices of their edges. -/
structure InstAlike (cfg : Cfg) (m m' : Mesh K) (i i' : Inst K) : Prop where
  rest : i' = { i with queue := i'.queue, nodeBuffer := i'.nodeBuffer }
  queue : List.Forall₂ (NodeAlike cfg m m') i.queue i'.queue
  nodeBuffer : List.Forall₂ (NodeAlike cfg m m') i.nodeBuffer i'.nodeBuffer

variable {cfg : Cfg} {m m' : Mesh K} {l l' : Layer K}

theorem rightIndex_alike {p p' : Polygon} (h : List.Forall₂ (CornerAlike cfg l l') p.vertices p'.vertices) (x : Vec2 K) :
    rightIndex l' p' x = rightIndex l p x := by
  unfold rightIndex
  have hz := forall₂_zipIdx h 0
  rw [findFirst_alike (g := fun (v : UInt32 × Nat) => do
    let vx ← idx l'.vertices v.1.toNat
    .ok (if (vx.coords + l'.offset).distanceSquared x <. Scalar.lit 1 3 then some v.2 else none)) hz ?_]
  · congr 1
    funext near
    cases near with
    | some i => rfl
    | none =>
      have : RR (List.Forall₂ Eq) (p.vertices.zipIdx.mapM (fun v => do
          let vx ← idx l.vertices v.1.toNat
          .ok (v.2, (vx.coords + l.offset).distanceSquared x)))
          (p'.vertices.zipIdx.mapM (fun v => do
          let vx ← idx l'.vertices v.1.toNat
          .ok (v.2, (vx.coords + l'.offset).distanceSquared x))) := by
        refine RR.mapM hz ?_
        rintro ⟨a, i⟩ ⟨b, j⟩ ⟨⟨⟨y, y', h1, h2, h3, -, -⟩, -⟩, hj⟩
        simp only at h1 h2 hj ⊢
        rw [idx_eq_ok.2 h1, idx_eq_ok.2 h2, res_bind_ok, res_bind_ok, h3, hj]
        exact .ok rfl
      simp only
      rw [this.listEq]
  · rintro ⟨a, i⟩ ⟨b, j⟩ ⟨⟨⟨y, y', h1, h2, h3, -, -⟩, -⟩, hj⟩
    simp only at h1 h2 hj ⊢
    rw [idx_eq_ok.2 h1, idx_eq_ok.2 h2, res_bind_ok, res_bind_ok, h3, hj]

theorem edgeStartStep_alike {e e' : UInt32 × UInt32} (he : OnEnds (CornerAlike cfg l l') e e') (root int0 sp ep : Vec2 K)
    (ty : SuccTy) :
    List.Forall₂ (SuccAlike cfg l l') (edgeStartStep root int0 sp ep e ty).1 (edgeStartStep root int0 sp ep e' ty).1 ∧
      (edgeStartStep root int0 sp ep e' ty).2 = (edgeStartStep root int0 sp ep e ty).2 := by
  unfold edgeStartStep
  split
  · split
    · simp only
      split
      · exact ⟨.cons ⟨rfl, rfl, he⟩ .nil, rfl⟩
      · exact ⟨.nil, rfl⟩
    · exact ⟨.nil, rfl⟩
  · exact ⟨.nil, rfl⟩
  · split <;> exact ⟨.nil, rfl⟩

theorem edgeEndStep_alike {e e' : UInt32 × UInt32} (he : OnEnds (CornerAlike cfg l l') e e')
    (root int0 int1 sp ep : Vec2 K) (ty : SuccTy) :
    List.Forall₂ (SuccAlike cfg l l') (edgeEndStep root int0 int1 sp ep e ty).1
        (edgeEndStep root int0 int1 sp ep e' ty).1 ∧
      (edgeEndStep root int0 int1 sp ep e' ty).2 = (edgeEndStep root int0 int1 sp ep e ty).2 := by
  unfold edgeEndStep
  simp only
  split
  · split
    · exact ⟨.cons ⟨rfl, rfl, he⟩ (.cons ⟨rfl, rfl, he⟩ .nil), rfl⟩
    · exact ⟨.cons ⟨rfl, rfl, he⟩ .nil, rfl⟩
  · split <;> exact ⟨.cons ⟨rfl, rfl, he⟩ .nil, rfl⟩
  · exact ⟨.cons ⟨rfl, rfl, he⟩ .nil, rfl⟩

theorem edgesBetweenStep_alike {n n' : SearchNode K} (hn : n' = { n with edge := n'.edge })
    {e e' : UInt32 × UInt32} (he : OnEnds (CornerAlike cfg l l') e e')
    {st st' : List (Successor K) × SuccTy} (hs : List.Forall₂ (SuccAlike cfg l l') st.1 st'.1 ∧ st'.2 = st.2) :
    RR (fun st st' => List.Forall₂ (SuccAlike cfg l l') st.1 st'.1 ∧ st'.2 = st.2) (edgesBetweenStep l n st e)
      (edgesBetweenStep l' n' st' e') := by
  unfold edgesBetweenStep
  obtain ⟨x, x', h1, h2, h3, -, -⟩ := he.1.1
  obtain ⟨y, y', k1, k2, k3, -, -⟩ := he.2.1
  have hlt : ∀ (a b n : Nat), a < n → b < n → ¬ max a b > n := by intro a b n; omega
  have hmax : ∀ a b : UInt32, (max a b).toNat = max a.toNat b.toNat := by
    intro a b
    rw [show max a b = if a ≤ b then b else a from rfl]
    split
    · rename_i h
      have := UInt32.le_iff_toNat_le.1 h
      omega
    · rename_i h
      have : ¬ a.toNat ≤ b.toNat := fun hc => h (UInt32.le_iff_toNat_le.2 hc)
      omega
  rw [if_neg (by rw [hmax]; exact hlt _ _ _ (lt_of_getElem? h1) (lt_of_getElem? k1)),
    if_neg (by rw [hmax]; exact hlt _ _ _ (lt_of_getElem? h2) (lt_of_getElem? k2)),
    idxUnchecked_eq_ok.2 h1, idxUnchecked_eq_ok.2 h2, idxUnchecked_eq_ok.2 k1, idxUnchecked_eq_ok.2 k2]
  simp only [res_bind_ok]
  rw [h3, k3, hs.2, show n'.root = n.root from by rw [hn], show n'.interval = n.interval from by rw [hn]]
  obtain ⟨a1, a2⟩ := edgeStartStep_alike he n.root n.interval.1 (x.coords + l.offset) (y.coords + l.offset) st.2
  have a3 := congrArg Prod.fst a2
  have a4 := congrArg Prod.snd a2
  rw [a3, a4]
  obtain ⟨b1, b2⟩ := edgeEndStep_alike he n.root n.interval.1 n.interval.2
    (edgeStartStep n.root n.interval.1 (x.coords + l.offset) (y.coords + l.offset) e st.2).2.1
    (y.coords + l.offset) (edgeStartStep n.root n.interval.1 (x.coords + l.offset) (y.coords + l.offset) e st.2).2.2
  rw [b2]
  exact .ok ⟨List.rel_append (List.rel_append hs.1 a1) b1, rfl⟩

/-- Meshes that the search treats alike. -/
abbrev MeshAlike (cfg : Cfg) (m m' : Mesh K) : Prop := List.Forall₂ (LayerAlike cfg) m.layers m'.layers

theorem MeshAlike.layer (h : MeshAlike cfg m m') {i : Nat} {l : Layer K} (hl : m.layers[i]? = some l) :
    ∃ l', m'.layers[i]? = some l' ∧ LayerAlike cfg l l' := by
  have hi := lt_of_getElem? hl
  have hi' : i < m'.layers.length := h.length_eq ▸ hi
  refine ⟨m'.layers[i], List.getElem?_eq_getElem hi', ?_⟩
  have := List.Forall₂.get h hi hi'
  rw [List.getElem?_eq_getElem hi] at hl
  cases hl
  exact this

theorem edgesBetween_alike (hm : MeshAlike cfg m m') {n n' : SearchNode K} (hn : NodeAlike cfg m m' n n') :
    RR (fun s s' => ∃ l l', m.layers[(layerOf n.polygonTo).toNat]? = some l ∧
        m'.layers[(layerOf n.polygonTo).toNat]? = some l' ∧ List.Forall₂ (SuccAlike cfg l l') s s')
      (edgesBetween m n) (edgesBetween m' n') := by
  obtain ⟨pl, pl', hpl, hpl', he⟩ := hn.edge
  have h1 : n'.polygonTo = n.polygonTo := by rw [hn.rest]
  have h2 : n'.previousPolygonLayer = n.previousPolygonLayer := by rw [hn.rest]
  unfold edgesBetween
  rw [h1, h2]
  cases hl : m.layers[(layerOf n.polygonTo).toNat]? with
  | none =>
    have hl' : m'.layers[(layerOf n.polygonTo).toNat]? = none := by
      rw [List.getElem?_eq_none_iff] at hl ⊢
      rw [← hm.length_eq]; exact hl
    have e1 : idx m.layers (layerOf n.polygonTo).toNat = .error .panic := by unfold idx; rw [hl]
    have e2 : idx m'.layers (layerOf n.polygonTo).toNat = .error .panic := by unfold idx; rw [hl']
    rw [e1, e2]
    exact .error _
  | some l =>
    obtain ⟨l', hl', hll⟩ := hm.layer hl
    rw [idx_eq_ok.2 hl, idx_eq_ok.2 hl', res_bind_ok, res_bind_ok]
    refine (RR.idx hll.polygons _).bind fun p p' hp => ?_
    rw [idx_eq_ok.2 hpl, idx_eq_ok.2 hpl', res_bind_ok, res_bind_ok]
    obtain ⟨x, x', k1, k2, k3, -, -⟩ := he.2.1
    rw [idx_eq_ok.2 k1, idx_eq_ok.2 k2, res_bind_ok, res_bind_ok, k3, rightIndex_alike hp.2]
    refine RR.bindEq fun ri => ?_
    rw [hp.2.length_eq]
    refine (circularEdgesIndex_alike hp.2 _ _).bind fun es es' hes => ?_
    have h0 : List.Forall₂ (SuccAlike cfg l l') (([], .rightNonObservable) : List (Successor K) × SuccTy).1
        (([], .rightNonObservable) : List (Successor K) × SuccTy).1 ∧
        (([], .rightNonObservable) : List (Successor K) × SuccTy).2 =
        (([], .rightNonObservable) : List (Successor K) × SuccTy).2 := ⟨.nil, rfl⟩
    refine (RR.foldlM (S := fun st st' => List.Forall₂ (SuccAlike cfg l l') st.1 st'.1 ∧ st'.2 = st.2) hes
      (fun e e' he st st' hs => edgesBetweenStep_alike hn.rest he hs) h0).bind fun st st' hst => ?_
    exact .ok ⟨l, l', rfl, hl', hst.1⟩

theorem addNode_alike (hm : MeshAlike cfg m m') {i i' : Inst K} (hi : InstAlike cfg m m' i i') (root : Vec2 K)
    (o : UInt32) {l l' : Layer K} {n n' : SearchNode K} (hn : n' = { n with edge := n'.edge })
    (hl : m.layers[(layerOf n.polygonTo).toNat]? = some l)
    (hl' : m'.layers[(layerOf n.polygonTo).toNat]? = some l') (s e : Vec2 K) {a b a' b' : UInt32}
    (ha : CornerAlike cfg l l' a a') (hb : CornerAlike cfg l l' b b') :
    RR (InstAlike cfg m m') (i.addNode cfg m root o (s, a) (e, b) n) (i'.addNode cfg m' root o (s, a') (e, b') n') := by
  have hg : i'.goal = i.goal := by rw [hi.rest]
  have hh : i'.rootHistory = i.rootHistory := by rw [hi.rest]
  have hd : newDistance cfg m' root n' = newDistance cfg m root n := by
    unfold newDistance
    rw [show n'.root = n.root from by rw [hn], show n'.distanceStartToRoot = n.distanceStartToRoot from by rw [hn],
      show n'.polygonTo = n.polygonTo from by rw [hn]]
    split
    · rfl
    · split
      · refine RR.eq ((RR.idx hm _).bind fun x x' h => ?_)
        rw [h.scale]
        exact .ok rfl
      · rfl
  have hu : newHeuristic cfg m' i'.goal root (s, a') (e, b') = newHeuristic cfg m i.goal root (s, a) (e, b) := by
    unfold newHeuristic
    rw [hg]
    split
    · rename_i hc
      simp only
      rw [ha.2 hc, hb.2 hc]
      refine RR.eq ((RR.idx hm _).bind fun x x' h => (RR.idx hm _).bind fun y y' h' => ?_)
      rw [h.scale, h'.scale]
      exact .ok rfl
    · rfl
  unfold Inst.addNode
  rw [hd, hu]
  refine RR.bindEq fun newF => RR.bindEq fun h => ?_
  rw [hh]
  have hnew : NodeAlike cfg m m'
      { path := if root.beq n.root then n.path else n.path ++ [root]
        pathWithLayers := newPathWithLayers cfg root o s e n
        root := root, interval := (s, e), edge := (a, b), polygonFrom := n.polygonTo, polygonTo := o
        previousPolygonLayer := layerOf n.polygonTo, distanceStartToRoot := newF, heuristic := h }
      { path := if root.beq n'.root then n'.path else n'.path ++ [root]
        pathWithLayers := newPathWithLayers cfg root o s e n'
        root := root, interval := (s, e), edge := (a', b'), polygonFrom := n'.polygonTo, polygonTo := o
        previousPolygonLayer := layerOf n'.polygonTo, distanceStartToRoot := newF, heuristic := h } :=
    ⟨by rw [hn]; rfl, l, l', hl, hl', ha, hb⟩
  have hadd : InstAlike cfg m m' { i with
      rootHistory := histSet i.rootHistory root newF
      nodeBuffer := i.nodeBuffer ++ [_] } { i' with
      rootHistory := histSet i.rootHistory root newF
      nodeBuffer := i'.nodeBuffer ++ [_] } :=
    ⟨by rw [hi.rest], hi.queue, List.rel_append hi.nodeBuffer (.cons hnew .nil)⟩
  split
  · exact .ok hi
  · simp only
    split
    · split
      · exact .ok hi
      · exact .ok hadd
    · exact .ok hadd

theorem otherSideOf_alike {x x' y y' : Vertex K} (h : x'.polygons = x.polygons) (h' : y'.polygons = y.polygons)
    (cur : UInt32) : otherSideOf x' y' cur = otherSideOf x y cur := by
  unfold otherSideOf
  rw [h, h']

theorem canTurnAt_alike {x x' : Vertex K} (h : x'.polygons = x.polygons) (h' : x'.isCorner = x.isCorner)
    (B : List UInt8) : canTurnAt B x' = canTurnAt B x := by
  unfold canTurnAt
  rw [h, h']

theorem successorRoot_alike (B : List UInt8) {n n' : SearchNode K} (hn : NodeAlike cfg m m' n n') {l l' : Layer K}
    {x x' y y' : Vertex K} (hx : x'.coords + l'.offset = x.coords + l.offset)
    (hy : y'.coords + l'.offset = y.coords + l.offset) {s s' : Successor K} (hs : SuccAlike cfg l l' s s') :
    successorRoot m' B n' l' x' y' s' = successorRoot m B n l x y s := by
  obtain ⟨pl, pl', hpl, hpl', he⟩ := hn.edge
  have h2 : n'.previousPolygonLayer = n.previousPolygonLayer := by rw [hn.rest]
  have h3 : n'.interval = n.interval := by rw [hn.rest]
  have h4 : n'.root = n.root := by rw [hn.rest]
  obtain ⟨u, u', a1, a2, a3, a4, a5⟩ := he.1.1
  obtain ⟨w, w', b1, b2, b3, b4, b5⟩ := he.2.1
  unfold successorRoot
  rw [hs.ty, hs.interval, hx, hy, h2, h3, h4, idx_eq_ok.2 hpl, idx_eq_ok.2 hpl']
  simp only [res_bind_ok]
  rw [idx_eq_ok.2 a1, idx_eq_ok.2 a2, idx_eq_ok.2 b1, idx_eq_ok.2 b2]
  simp only [res_bind_ok]
  rw [a3, b3, canTurnAt_alike a4 a5, canTurnAt_alike b4 b5]

theorem expandOne_alike (hm : MeshAlike cfg m m') {n n' : SearchNode K} (hn : NodeAlike cfg m m' n n')
    {l l' : Layer K} (hl : m.layers[(layerOf n.polygonTo).toNat]? = some l)
    (hl' : m'.layers[(layerOf n.polygonTo).toNat]? = some l') {s s' : Successor K} (hs : SuccAlike cfg l l' s s')
    {i i' : Inst K} (hi : InstAlike cfg m m' i i') :
    RR (InstAlike cfg m m') (expandOne cfg m n i s) (expandOne cfg m' n' i' s') := by
  have h1 : n'.polygonTo = n.polygonTo := by rw [hn.rest]
  have h2 : n'.polygonFrom = n.polygonFrom := by rw [hn.rest]
  have h3 : i'.blocked = i.blocked := by rw [hi.rest]
  have h4 : i'.polygonTo = i.polygonTo := by rw [hi.rest]
  obtain ⟨x, x', a1, a2, a3, a4, a5⟩ := hs.edge.1.1
  obtain ⟨y, y', b1, b2, b3, b4, b5⟩ := hs.edge.2.1
  unfold expandOne
  rw [h1, idx_eq_ok.2 hl, idx_eq_ok.2 hl']
  simp only [res_bind_ok]
  rw [idxUnchecked_eq_ok.2 a1, idxUnchecked_eq_ok.2 a2, idxUnchecked_eq_ok.2 b1, idxUnchecked_eq_ok.2 b2]
  simp only [res_bind_ok]
  rw [otherSideOf_alike a4 b4, h2, h3, h4, successorRoot_alike i.blocked hn a3 b3 hs, hs.interval]
  generalize otherSideOf x y n.polygonTo = o
  split
  · exact .ok hi
  split
  · exact .ok hi
  have hdead : RR Eq (if i.polygonTo ≠ o then do
        let l ← idx m.layers (layerOf o).toNat
        let p ← idx l.polygons (polygonOf o).toNat
        .ok p.isOneWay
      else .ok false : Res Bool) (if i.polygonTo ≠ o then do
        let l ← idx m'.layers (layerOf o).toNat
        let p ← idx l.polygons (polygonOf o).toNat
        .ok p.isOneWay
      else .ok false : Res Bool) := by
    split
    · refine (RR.idx hm _).bind fun k k' hk => (RR.idx hk.polygons _).bind fun p p' hp => .ok hp.1.symm
    · exact .ok rfl
  refine hdead.bind ?_
  rintro d _ rfl
  split
  · exact .ok hi
  split
  · exact .ok hi
  refine RR.bindEq fun r => ?_
  cases r with
  | none => exact .ok hi
  | some root =>
    simp only
    split
    · exact .ok hi
    · exact addNode_alike hm hi root o hn.rest hl hl' _ _ hs.edge.1 hs.edge.2

theorem isReverse_alike {n n' k k' : SearchNode K} (hn : NodeAlike cfg m m' n n') (hk : NodeAlike cfg m m' k k') :
    isReverse n' k' = isReverse n k := by
  rw [hn.rest, hk.rest]
  rfl

theorem successorsLoop_alike (hm : MeshAlike cfg m m') : ∀ (fuel : Nat) (visited : List UInt32)
    {n n' : SearchNode K} (_ : NodeAlike cfg m m' n n') {i i' : Inst K} (_ : InstAlike cfg m m' i i'),
    RR (InstAlike cfg m m') (successorsLoop cfg m fuel visited n i) (successorsLoop cfg m' fuel visited n' i') := by
  intro fuel
  induction fuel with
  | zero => intro visited n n' _ i i' _; exact .error _
  | succ fuel ih =>
    intro visited n n' hn i i' hi
    simp only [successorsLoop]
    refine (edgesBetween_alike hm hn).bind ?_
    rintro succs succs' ⟨l, l', hl, hl', hs⟩
    refine (RR.foldlM hs (fun s s' hs i i' hi => expandOne_alike hm hn hl hl' hs hi) hi).bind fun i i' hi => ?_
    have hb := hi.nodeBuffer
    have hp : i'.polygonTo = i.polygonTo := by rw [hi.rest]
    have hclear : InstAlike cfg m m' { i with nodeBuffer := [] } { i' with nodeBuffer := [] } :=
      ⟨by rw [hi.rest], hi.queue, .nil⟩
    rw [hp] at hclear
    revert hb
    generalize i.nodeBuffer = b
    generalize i'.nodeBuffer = b'
    intro hb
    cases hb with
    | nil => exact .ok hi
    | @cons k k' ks ks' hk hks =>
      cases hks with
      | cons h1 h2 => exact .ok hi
      | nil =>
        have e1 : k'.polygonTo = k.polygonTo := by rw [hk.rest]
        simp only
        rw [e1, hp, isReverse_alike hk hn]
        split
        · split
          · exact .ok hclear
          · split
            · exact .ok hclear
            · exact ih _ hk hclear
        · exact .ok hi

theorem flushNodes_alike {i i' : Inst K} (hi : InstAlike cfg m m' i i') :
    InstAlike cfg m m' i.flushNodes i'.flushNodes :=
  ⟨by rw [hi.rest]; rfl, List.rel_append hi.queue hi.nodeBuffer, .nil⟩

theorem successors_alike (hm : MeshAlike cfg m m') {n n' : SearchNode K} (hn : NodeAlike cfg m m' n n') {i i' : Inst K}
    (hi : InstAlike cfg m m' i i') : RR (InstAlike cfg m m') (i.successors cfg m n) (i'.successors cfg m' n') := by
  unfold Inst.successors
  exact (successorsLoop_alike hm _ _ hn hi).bind fun i i' hi => .ok (flushNodes_alike hi)

theorem setupEdge_alike (hm : MeshAlike cfg m m') {src dst : Vec2 K × UInt32} {l l' : Layer K}
    (hl : m.layers[(layerOf src.2).toNat]? = some l) (hl' : m'.layers[(layerOf src.2).toNat]? = some l')
    {e e' : UInt32 × UInt32} (he : OnEnds (CornerAlike cfg l l') e e') {i i' : Inst K} (hi : InstAlike cfg m m' i i') :
    RR (InstAlike cfg m m') (setupEdge cfg m l src dst (emptyNode src) i e)
      (setupEdge cfg m' l' src dst (emptyNode src) i' e') := by
  obtain ⟨x, x', a1, a2, a3, a4, a5⟩ := he.1.1
  obtain ⟨y, y', b1, b2, b3, b4, b5⟩ := he.2.1
  unfold setupEdge
  rw [a1, a2, b1, b2]
  simp only
  rw [otherSideOf_alike a4 b4, show i'.blocked = i.blocked from by rw [hi.rest], a3, b3]
  generalize otherSideOf x y src.2 = o
  split
  · exact .ok hi
  have hgo : RR Eq (if o = dst.2 then .ok true
        else if o = u32Max then .ok false
        else do
          let l ← idx m.layers (layerOf o).toNat
          let p ← idx l.polygons (polygonOf o).toNat
          .ok (!p.isOneWay) : Res Bool) (if o = dst.2 then .ok true
        else if o = u32Max then .ok false
        else do
          let l ← idx m'.layers (layerOf o).toNat
          let p ← idx l.polygons (polygonOf o).toNat
          .ok (!p.isOneWay) : Res Bool) := by
    split
    · exact .ok rfl
    split
    · exact .ok rfl
    refine (RR.idx hm _).bind fun k k' hk => (RR.idx hk.polygons _).bind fun p p' hp => .ok (by rw [hp.1])
  refine hgo.bind ?_
  rintro d _ rfl
  split
  · exact addNode_alike hm hi src.1 o (n := emptyNode src) rfl hl hl' _ _ he.1 he.2
  · exact .ok hi

theorem setup_alike (hm : MeshAlike cfg m m') (src dst : Vec2 K × UInt32) (B : List UInt8) :
    RR (InstAlike cfg m m') (Inst.setup cfg m src dst B) (Inst.setup cfg m' src dst B) := by
  unfold Inst.setup
  cases hl : m.layers[(layerOf src.2).toNat]? with
  | none =>
    have hl' : m'.layers[(layerOf src.2).toNat]? = none := by
      rw [List.getElem?_eq_none_iff] at hl ⊢
      rw [← hm.length_eq]; exact hl
    have e1 : idx m.layers (layerOf src.2).toNat = .error .panic := by unfold idx; rw [hl]
    have e2 : idx m'.layers (layerOf src.2).toNat = .error .panic := by unfold idx; rw [hl']
    rw [e1, e2]
    exact .error _
  | some l =>
    obtain ⟨l', hl', hll⟩ := hm.layer hl
    rw [idx_eq_ok.2 hl, idx_eq_ok.2 hl', res_bind_ok, res_bind_ok]
    refine (RR.idx hll.polygons _).bind fun p p' hp => ?_
    refine (edgesIndex_alike hp.2).bind fun es es' hes => ?_
    have h0 : ∀ i : Inst K, i.queue = [] → i.nodeBuffer = [] → InstAlike cfg m m' i i := by
      intro i h1 h2
      exact ⟨rfl, by rw [h1]; exact .nil, by rw [h2]; exact .nil⟩
    refine (RR.foldlM hes (fun e e' he i i' hi => setupEdge_alike hm hl hl' he hi) (h0 _ rfl rfl)).bind
      fun i i' hi => .ok (flushNodes_alike hi)

theorem foundPath_alike (hm : MeshAlike cfg m m') {i i' : Inst K} (hi : InstAlike cfg m m' i i')
    {n n' : SearchNode K} (hn : NodeAlike cfg m m' n n') : foundPath cfg m' i' n' = foundPath cfg m i n := by
  have hd : ∀ (ps : List (Vec2 K × UInt8)) acc cur, detailedLength m' acc cur ps = detailedLength m acc cur ps := by
    intro ps
    induction ps with
    | nil => intros; rfl
    | cons p ps ih =>
      intro acc cur
      simp only [detailedLength, ih]
      refine RR.eq ((RR.idx hm _).bind fun x x' h => ?_)
      rw [h.scale]
      exact RR.refl _
  unfold foundPath
  simp only [hd]
  rw [hi.rest, hn.rest]
  rfl

theorem next_alike {heap : Heap K} (hh : heap.ByCost) (hm : MeshAlike cfg m m') {i i' : Inst K}
    (hi : InstAlike cfg m m' i i') :
    RR (fun r r' => r'.1 = r.1 ∧ InstAlike cfg m m' r.2 r'.2) (i.next heap cfg m) (i'.next heap cfg m') := by
  unfold Inst.next
  rcases hh (NodeAlike cfg m m') (fun n n' h => by rw [h.rest]; exact ⟨rfl, rfl⟩) _ _ hi.queue with
    ⟨h1, h2⟩ | ⟨n, r, n', r', h1, h2, hn, hr⟩
  · rw [h1, h2]
    exact .ok ⟨rfl, hi⟩
  · rw [h1, h2]
    simp only
    have hi2 : InstAlike cfg m m' { i with queue := r } { i' with queue := r' } :=
      ⟨by rw [hi.rest], hr, hi.nodeBuffer⟩
    have hdom : isDominated { i' with queue := r' } n' = isDominated { i with queue := r } n := by
      unfold isDominated
      rw [show n'.root = n.root from by rw [hn.rest], show n'.distanceStartToRoot = n.distanceStartToRoot from by
        rw [hn.rest], show i'.rootHistory = i.rootHistory from by rw [hi.rest]]
    have hp : i'.polygonTo = i.polygonTo := by rw [hi.rest]
    rw [hdom, foundPath_alike hm hi2 hn, show n'.polygonTo = n.polygonTo from by rw [hn.rest], hp]
    rw [hp] at hi2
    split
    · exact .ok ⟨rfl, hi2⟩
    split
    · exact RR.bindEq fun p => .ok ⟨rfl, hi2⟩
    · exact (successors_alike hm hn hi2).bind fun i i' hi => .ok ⟨rfl, hi⟩

theorem searchLoop_alike {heap : Heap K} (hh : heap.ByCost) (hm : MeshAlike cfg m m') : ∀ (n : Nat) {i i' : Inst K}
    (_ : InstAlike cfg m m' i i') (ps : List (Path K)),
    searchLoop heap cfg m' n i' ps = searchLoop heap cfg m n i ps := by
  intro n
  induction n with
  | zero => intros; rw [searchLoop, searchLoop]
  | succ n ih =>
    intro i i' hi ps
    rw [searchLoop_succ, searchLoop_succ]
    refine RR.eq ((next_alike hh hm hi).bind ?_)
    rintro ⟨step, j⟩ ⟨step', j'⟩ ⟨rfl, hj⟩
    have : ∀ ps, searchLoop heap cfg m' n j' ps = searchLoop heap cfg m n j ps := fun ps => ih hj ps
    simp only
    unfold afterStep
    split
    · rw [this]; exact RR.refl _
    · split <;> · rw [this]; exact RR.refl _
    · rw [this]; exact RR.refl _

theorem pollSteps_alike {heap : Heap K} (hh : heap.ByCost) (hm : MeshAlike cfg m m') : ∀ (n : Nat) {i i' : Inst K}
    (_ : InstAlike cfg m m' i i'),
    RR (fun r r' => r'.1 = r.1 ∧ InstAlike cfg m m' r.2 r'.2) (pollSteps heap cfg m n i) (pollSteps heap cfg m' n i') := by
  intro n
  induction n with
  | zero => intro i i' hi; exact .ok ⟨rfl, hi⟩
  | succ n ih =>
    intro i i' hi
    simp only [pollSteps]
    refine (next_alike hh hm hi).bind ?_
    rintro ⟨step, j⟩ ⟨step', j'⟩ ⟨rfl, hj⟩
    cases step' with
    | found p => exact .ok ⟨rfl, hj⟩
    | notFound => exact .ok ⟨rfl, hj⟩
    | «continue» => exact ih hj

theorem islandsDiffer_alike (hm : MeshAlike cfg m m') (s e : UInt32) : m'.islandsDiffer s e = m.islandsDiffer s e := by
  unfold Mesh.islandsDiffer
  rw [hm.length_eq]
  split
  · refine RR.eq ((RR.idx hm _).bind fun x x' h => ?_)
    rw [h.islands]
    exact RR.refl _
  · rfl

theorem islandsDifferAsync_alike (hm : MeshAlike cfg m m') (s e : UInt32) :
    m'.islandsDifferAsync s e = m.islandsDifferAsync s e := by
  unfold Mesh.islandsDifferAsync
  split
  · refine RR.eq ((RR.idx hm _).bind fun x x' h => ?_)
    rw [h.islands]
    exact RR.refl _
  · rfl

theorem stepBudget_alike (hm : MeshAlike cfg m m') : m'.stepBudget = m.stepBudget := by
  unfold Mesh.stepBudget
  have : m'.layers.map (fun l => l.polygons.length) = m.layers.map (fun l => l.polygons.length) := by
    revert hm
    unfold MeshAlike
    generalize m.layers = ls
    generalize m'.layers = ls'
    intro hm
    induction hm with
    | nil => rfl
    | cons h _ ih => rw [List.map_cons, List.map_cons, ih, h.polygons.length_eq]
  rw [this]

/-- Queries between known polygons give the same answers. -/
theorem pathBetween_alike {heap : Heap K} (hh : heap.ByCost) (hm : MeshAlike cfg m m') (a b : Vec2 K) (s e : UInt32)
    (B : List UInt8) : m'.pathBetween heap cfg a b s e B = m.pathBetween heap cfg a b s e B := by
  rw [pathBetween_eq, pathBetween_eq, islandsDiffer_alike hm, stepBudget_alike hm]
  congr 1
  funext d
  unfold afterIslands
  split
  · rfl
  split
  · rfl
  refine RR.eq ((setup_alike hm (a, s) (b, e) B).bind fun i i' hi => ?_)
  simp only
  rw [searchLoop_alike hh hm _ hi]
  exact RR.refl _

end Polyanya
