import Verif.Spec.Blocked
import Verif.Proofs.Corridor
import Verif.Props.Islands
import Verif.Model.Async
/-
Blocking layers is the same as making them the outside.
-/

namespace Polyanya

set_option linter.unusedSectionVars false

variable {K : Type} [Scalar K] {B : List UInt8}

/-- The instance without its blocked layers. -/
def Inst.free (inst : Inst K) : Inst K := { inst with blocked := [] }

/-- Both computations fault alike, or end in instances that differ in the blocked layers only. -/
def Sim (B : List UInt8) (x y : Res (Inst K)) : Prop :=
  y = x.map Inst.free ∧ ∀ i, x = .ok i → i.blocked = B

theorem Sim.ok {i : Inst K} (h : i.blocked = B) : Sim B (.ok i) (.ok i.free) :=
  ⟨rfl, by intro j hj; cases hj; exact h⟩

theorem Sim.error (f : Fault) : Sim (K := K) B (.error f) (.error f) := ⟨rfl, by intro j hj; cases hj⟩

theorem Sim.bind {x y : Res (Inst K)} {f g : Inst K → Res (Inst K)} (h : Sim B x y)
    (hfg : ∀ i, i.blocked = B → Sim B (f i) (g i.free)) : Sim B (x >>= f) (y >>= g) := by
  obtain ⟨rfl, h2⟩ := h
  cases x with
  | error e => exact Sim.error e
  | ok i => exact hfg i (h2 i rfl)

theorem Sim.bindEq {α : Type} {x : Res α} {f g : α → Res (Inst K)} (h : ∀ a, x = .ok a → Sim B (f a) (g a)) :
    Sim B (x >>= f) (x >>= g) := by
  cases x with
  | error e => exact Sim.error e
  | ok a => exact h a rfl

theorem Sim.foldlM {α : Type} {f g : Inst K → α → Res (Inst K)} : ∀ (l : List α) (i : Inst K), i.blocked = B →
    (∀ a ∈ l, ∀ i, i.blocked = B → Sim B (f i a) (g i.free a)) → Sim B (l.foldlM f i) (l.foldlM g i.free)
  | [], i, hi, _ => Sim.ok hi
  | a :: l, i, hi, h => by
    rw [List.foldlM_cons, List.foldlM_cons]
    exact (h a (by simp) i hi).bind fun j hj => Sim.foldlM l j hj fun b hb => h b (by simp [hb])

theorem idx_cutOff {β : Type} (ls : List (Layer K)) (i : Nat) (k : Layer K → Res β) :
    (idx (ls.map (Layer.cutOff B)) i >>= k) = idx ls i >>= fun l => k (l.cutOff B) := by
  unfold idx
  rw [List.getElem?_map]
  cases ls[i]? <;> rfl

theorem idx_cutOffV {β : Type} (vs : List (Vertex K)) (i : Nat) (k : Vertex K → Res β) :
    (idx (vs.map (Vertex.cutOff B)) i >>= k) = idx vs i >>= fun v => k (v.cutOff B) := by
  unfold idx
  rw [List.getElem?_map]
  cases vs[i]? <;> rfl

theorem idxUnchecked_cutOffV {β : Type} (vs : List (Vertex K)) (i : Nat) (k : Vertex K → Res β) :
    (idxUnchecked (vs.map (Vertex.cutOff B)) i >>= k) = idxUnchecked vs i >>= fun v => k (v.cutOff B) := by
  unfold idxUnchecked
  rw [List.getElem?_map]
  cases vs[i]? <;> rfl

theorem edgesBetweenStep_cutOff (l : Layer K) (node : SearchNode K) :
    edgesBetweenStep (l.cutOff B) node = edgesBetweenStep l node := by
  funext st edge
  unfold edgesBetweenStep
  simp only [Layer.cutOff, idxUnchecked_cutOffV, List.length_map]
  rfl

theorem rightIndex_cutOff (l : Layer K) (p : Polygon) (x : Vec2 K) :
    rightIndex (l.cutOff B) p x = rightIndex l p x := by
  unfold rightIndex
  simp only [Layer.cutOff, idx_cutOffV]
  rfl

theorem edgesBetween_cutOff (m : Mesh K) (n : SearchNode K) : edgesBetween (m.cutOff B) n = edgesBetween m n := by
  unfold edgesBetween
  simp only [Mesh.cutOff, idx_cutOff, edgesBetweenStep_cutOff, rightIndex_cutOff]
  simp only [Layer.cutOff, idx_cutOffV]
  rfl

theorem addNode_cutOff (cfg : Cfg) (m : Mesh K) :
    Inst.addNode cfg (m.cutOff B) = Inst.addNode cfg m := by
  funext inst root o s e n
  unfold Inst.addNode newDistance newHeuristic Mesh.cutOff
  simp only [idx_cutOff]
  rfl

theorem addNode_sim (cfg : Cfg) (m : Mesh K) (inst : Inst K) (hi : inst.blocked = B) (root : Vec2 K) (o : UInt32)
    (s e : Vec2 K × UInt32) (n : SearchNode K) :
    Sim B (inst.addNode cfg m root o s e n) (inst.free.addNode cfg (m.cutOff B) root o s e n) := by
  rw [addNode_cutOff]
  unfold Inst.addNode
  refine Sim.bindEq fun newF _ => ?_
  refine Sim.bindEq fun h _ => ?_
  simp only [Inst.free]
  split
  · exact Sim.ok hi
  · split
    · split
      · exact Sim.ok hi
      · exact Sim.ok hi
    · exact Sim.ok hi

/-- The other side of an edge, when the blocked layers are outside. -/
theorem otherSideOf_cutOff {start stop : Vertex K} {cur : UInt32}
    (huniq : ∀ p p', p ∈ start.polygons → p ∈ stop.polygons → p ≠ u32Max → p ≠ cur → p' ∈ start.polygons →
      p' ∈ stop.polygons → p' ≠ u32Max → p' ≠ cur → p = p') :
    otherSideOf (start.cutOff B) (stop.cutOff B) cur =
      if B.contains (layerOf (otherSideOf start stop cur)) then u32Max else otherSideOf start stop cur := by
  have memC : ∀ (v : Vertex K) p, p ≠ u32Max →
      (p ∈ (v.cutOff B).polygons ↔ p ∈ v.polygons ∧ B.contains (layerOf p) = false) := by
    intro v p hp
    simp only [Vertex.cutOff, List.mem_map]
    constructor
    · rintro ⟨q, hq, h⟩
      split at h
      · exact absurd h.symm hp
      · rename_i hb
        subst h
        exact ⟨hq, by simpa using hb⟩
    · rintro ⟨h1, h2⟩
      exact ⟨p, h1, by rw [h2]; simp⟩
  by_cases h' : otherSideOf (start.cutOff B) (stop.cutOff B) cur = u32Max
  · rw [h']
    by_cases h : otherSideOf start stop cur = u32Max
    · rw [h]; simp
    · rw [if_pos]
      obtain ⟨h1, h2, h3⟩ := otherSideOf_mem h
      by_contra hb
      have hb : B.contains (layerOf (otherSideOf start stop cur)) = false := by simpa using hb
      -- then it would be found in the mesh with the blocked layers outside
      have k1 := (memC start _ h).2 ⟨h1, hb⟩
      have k2 := (memC stop _ h).2 ⟨h2, hb⟩
      unfold otherSideOf at h'
      cases hf : (((start.cutOff B).polygons.filter
          (fun i => i ≠ u32Max && (stop.cutOff B).polygons.contains i)).find? (fun p => p ≠ cur)) with
      | none =>
        rw [List.find?_eq_none] at hf
        exact hf _ (List.mem_filter.2 ⟨k1, by simp [h, k2]⟩) (by simpa using h3)
      | some q =>
        have hq := List.mem_of_find?_eq_some hf
        rw [List.mem_filter] at hq
        rw [hf] at h'
        have h' : q = u32Max := h'
        have := hq.2
        simp [h'] at this
  · obtain ⟨h1, h2, h3⟩ := otherSideOf_mem h'
    obtain ⟨k1, b1⟩ := (memC start _ h').1 h1
    obtain ⟨k2, -⟩ := (memC stop _ h').1 h2
    have hne : otherSideOf start stop cur ≠ u32Max := by
      unfold otherSideOf
      cases hf : ((start.polygons.filter (fun i => i ≠ u32Max && stop.polygons.contains i)).find?
          (fun p => p ≠ cur)) with
      | none =>
        rw [List.find?_eq_none] at hf
        exact absurd (by simpa using h3) (hf _ (List.mem_filter.2 ⟨k1, by simp [h', k2]⟩))
      | some q =>
        have hq := List.mem_of_find?_eq_some hf
        rw [List.mem_filter] at hq
        have := hq.2
        simp only [Option.getD_some]
        intro hqm
        simp [hqm] at this
    obtain ⟨g1, g2, g3⟩ := otherSideOf_mem hne
    have := huniq _ _ k1 k2 h' h3 g1 g2 hne g3
    rw [this] at b1 ⊢
    rw [b1]
    simp

/-- In the mesh with the blocked layers outside, one can turn at the same vertices. -/
theorem canTurnAt_cutOff (v : Vertex K) : canTurnAt [] (v.cutOff B) = canTurnAt B v := by
  unfold canTurnAt Vertex.cutOff
  simp only [List.isEmpty_nil, Bool.not_true, Bool.false_and, Bool.or_false]
  congr 2
  rw [Bool.eq_iff_iff]
  simp only [List.contains_eq_mem, List.mem_map, decide_eq_true_eq, List.any_eq_true, Bool.or_eq_true, beq_iff_eq]
  constructor
  · rintro ⟨p, hp, h⟩
    refine ⟨p, hp, ?_⟩
    split at h
    · rename_i hb; exact .inr (by simpa using hb)
    · exact .inl h
  · rintro ⟨p, hp, h⟩
    refine ⟨p, hp, ?_⟩
    rcases h with rfl | h
    · split <;> rfl
    · rw [if_pos h]

theorem successorRoot_cutOff (m : Mesh K) (node : SearchNode K) (layer : Layer K) (start stop : Vertex K)
    (s : Successor K) :
    successorRoot (m.cutOff B) [] node (layer.cutOff B) (start.cutOff B) (stop.cutOff B) s =
      successorRoot m B node layer start stop s := by
  unfold successorRoot
  simp only [Mesh.cutOff, idx_cutOff]
  simp only [Layer.cutOff, idx_cutOffV, canTurnAt_cutOff]
  rfl

/-- The hypotheses of `otherSideOf_cutOff` for an edge of a polygon. -/
theorem Mesh.OneOtherSide.edge {m : Mesh K} (hm : m.OneOtherSide) {id : UInt32} {l : Layer K} {poly : Polygon}
    (hl : m.layers[(layerOf id).toNat]? = some l) (hp : l.polygons[(polygonOf id).toNat]? = some poly)
    {a b : UInt32} (he : IsEdge poly.vertices a b) {start stop : Vertex K}
    (ha : l.vertices[a.toNat]? = some start) (hb : l.vertices[b.toNat]? = some stop) (p p' : UInt32)
    (h1 : p ∈ start.polygons) (h2 : p ∈ stop.polygons) (h3 : p ≠ u32Max) (h4 : p ≠ id)
    (k1 : p' ∈ start.polygons) (k2 : p' ∈ stop.polygons) (k3 : p' ≠ u32Max) (k4 : p' ≠ id) : p = p' := by
  have hh : HasPolygon m id l poly := by
    unfold HasPolygon
    rw [layerOf_toNat] at hl
    rw [polygonOf_toNat] at hp
    exact ⟨hl, hp⟩
  exact hm ⟨id, p', a, b⟩ ⟨id, p, a, b⟩ ⟨l, poly, start, stop, hh, he, ha, hb, k1, k2, k3, k4⟩
    ⟨l, poly, start, stop, hh, he, ha, hb, h1, h2, h3, h4⟩ rfl rfl rfl

theorem expandOne_sim (cfg : Cfg) {m : Mesh K} (hm : m.OneOtherSide) (node : SearchNode K) {succs : List (Successor K)}
    (hs : edgesBetween m node = .ok succs) (s : Successor K) (hmem : s ∈ succs) (inst : Inst K)
    (hi : inst.blocked = B) :
    Sim B (expandOne cfg m node inst s) (expandOne cfg (m.cutOff B) node inst.free s) := by
  obtain ⟨layer, poly, h1, h2, h3⟩ := edgesBetween_on hs
  obtain ⟨he, va, vb, h4, h5, -, -⟩ := h3 s hmem
  unfold expandOne
  rw [show (m.cutOff B).layers = m.layers.map (Layer.cutOff B) from rfl]
  simp only [idx_cutOff]
  refine Sim.bindEq fun l hl => ?_
  rw [idx_eq_ok, h1] at hl
  cases hl
  simp only [show ∀ l : Layer K, (l.cutOff B).vertices = l.vertices.map (Vertex.cutOff B) from fun _ => rfl,
    idxUnchecked_cutOffV]
  refine Sim.bindEq fun start hst => ?_
  rw [idxUnchecked_eq_ok, h4] at hst
  cases hst
  refine Sim.bindEq fun stop hst => ?_
  rw [idxUnchecked_eq_ok, h5] at hst
  cases hst
  rw [otherSideOf_cutOff (hm.edge h1 h2 he h4 h5)]
  simp only [successorRoot_cutOff, hi, show inst.free.blocked = [] from rfl,
    show inst.free.polygonTo = inst.polygonTo from rfl]
  generalize otherSideOf va vb node.polygonTo = o
  by_cases hb : B.contains (layerOf o) = true
  · simp only [hb, if_true]
    split
    · exact Sim.ok hi
    · exact Sim.ok hi
  · simp only [hb, if_false, Bool.false_eq_true, List.contains_nil]
    split
    · exact Sim.ok hi
    · have hx : ∀ (x : Res Bool) (f g : Bool → Res (Inst K)), (∀ b, Sim B (f b) (g b)) → Sim B (x >>= f) (x >>= g) :=
        fun x f g h => Sim.bindEq fun b _ => h b
      refine hx _ _ _ fun d => ?_
      split
      · exact Sim.ok hi
      split
      · exact Sim.ok hi
      refine Sim.bindEq fun r _ => ?_
      cases r with
      | none => exact Sim.ok hi
      | some root =>
        simp only
        split
        · exact Sim.ok hi
        · exact addNode_sim cfg m inst hi _ _ _ _ _

theorem successorsLoop_sim (cfg : Cfg) {m : Mesh K} (hm : m.OneOtherSide) : ∀ (fuel : Nat) (visited : List UInt32)
    (node : SearchNode K) (inst : Inst K), inst.blocked = B →
    Sim B (successorsLoop cfg m fuel visited node inst)
      (successorsLoop cfg (m.cutOff B) fuel visited node inst.free) := by
  intro fuel
  induction fuel with
  | zero => intro visited node inst _; exact Sim.error _
  | succ fuel ih =>
    intro visited node inst hi
    simp only [successorsLoop, edgesBetween_cutOff]
    refine Sim.bindEq fun succs hs => ?_
    refine (Sim.foldlM succs inst hi fun s hmem i hi => expandOne_sim cfg hm node hs s hmem i hi).bind fun i hi => ?_
    rw [show i.free.nodeBuffer = i.nodeBuffer from rfl]
    split
    · rw [show i.free.polygonTo = i.polygonTo from rfl]
      split
      · split
        · exact Sim.ok hi
        · split
          · exact Sim.ok hi
          · exact ih _ _ { i with nodeBuffer := [] } hi
      · exact Sim.ok hi
    · exact Sim.ok hi

theorem successors_sim (cfg : Cfg) {m : Mesh K} (hm : m.OneOtherSide) (inst : Inst K) (hi : inst.blocked = B)
    (node : SearchNode K) :
    Sim B (inst.successors cfg m node) (inst.free.successors cfg (m.cutOff B) node) := by
  unfold Inst.successors
  exact (successorsLoop_sim cfg hm _ _ _ _ hi).bind fun i hi => Sim.ok hi

theorem setupEdge_sim (cfg : Cfg) {m : Mesh K} (hm : m.OneOtherSide) {src dst : Vec2 K × UInt32}
    (hd : dst.2 ≠ u32Max) {l : Layer K} {poly : Polygon}
    (hl : m.layers[(layerOf src.2).toNat]? = some l) (hp : l.polygons[(polygonOf src.2).toNat]? = some poly)
    (edge : UInt32 × UInt32) (he : IsEdge poly.vertices edge.1 edge.2) (inst : Inst K) (hi : inst.blocked = B) :
    Sim B (setupEdge cfg m l src dst (emptyNode src) inst edge)
      (setupEdge cfg (m.cutOff B) (l.cutOff B) src dst (emptyNode src) inst.free edge) := by
  unfold setupEdge
  rw [show (l.cutOff B).vertices = l.vertices.map (Vertex.cutOff B) from rfl, List.getElem?_map, List.getElem?_map]
  cases ha : l.vertices[edge.1.toNat]? with
  | none => exact Sim.ok hi
  | some start =>
    cases hb : l.vertices[edge.2.toNat]? with
    | none => exact Sim.ok hi
    | some stop =>
      simp only [Option.map_some]
      rw [otherSideOf_cutOff (hm.edge hl hp he ha hb)]
      rw [hi, show inst.free.blocked = [] from rfl]
      generalize otherSideOf start stop src.2 = o
      by_cases hbl : B.contains (layerOf o) = true
      · simp only [hbl, if_true, List.contains_nil, Bool.false_eq_true, if_false]
        rw [if_neg (Ne.symm hd)]
        exact Sim.ok hi
      · simp only [hbl, if_false, Bool.false_eq_true, List.contains_nil]
        rw [show (m.cutOff B).layers = m.layers.map (Layer.cutOff B) from rfl]
        simp only [idx_cutOff]
        have hx : ∀ (x : Res Bool) (f g : Bool → Res (Inst K)), (∀ b, Sim B (f b) (g b)) →
            Sim B (x >>= f) (x >>= g) := fun x f g h => Sim.bindEq fun b _ => h b
        refine hx _ _ _ fun d => ?_
        split
        · exact addNode_sim cfg m inst hi _ _ _ _ _
        · exact Sim.ok hi

theorem setup_sim (cfg : Cfg) {m : Mesh K} (hm : m.OneOtherSide) (src dst : Vec2 K × UInt32) (hd : dst.2 ≠ u32Max) :
    Sim B (Inst.setup cfg m src dst B) (Inst.setup cfg (m.cutOff B) src dst []) := by
  unfold Inst.setup
  rw [show (m.cutOff B).layers = m.layers.map (Layer.cutOff B) from rfl, idx_cutOff]
  refine Sim.bindEq fun l hl => ?_
  rw [idx_eq_ok] at hl
  rw [show (l.cutOff B).polygons = l.polygons from rfl]
  refine Sim.bindEq fun poly hp => ?_
  rw [idx_eq_ok] at hp
  refine Sim.bindEq fun es hes => ?_
  refine Sim.bind ?_ fun i hi => Sim.ok (i := i.flushNodes) hi
  exact Sim.foldlM es _ rfl
    fun e he i hi => setupEdge_sim cfg hm hd hl hp e ((mem_edgesIndex hes e.1 e.2).1 he) i hi

theorem foundPath_cutOff (cfg : Cfg) (m : Mesh K) (inst : Inst K) (n : SearchNode K) :
    foundPath cfg (m.cutOff B) inst.free n = foundPath cfg m inst n := by
  have : ∀ (ps : List (Vec2 K × UInt8)) acc cur,
      detailedLength (m.cutOff B) acc cur ps = detailedLength m acc cur ps := by
    intro ps
    induction ps with
    | nil => intros; rfl
    | cons p ps ih =>
      intro acc cur
      simp only [detailedLength, ih]
      rw [show (m.cutOff B).layers = m.layers.map (Layer.cutOff B) from rfl, idx_cutOff]
      rfl
  unfold foundPath
  simp only [this]
  rfl

/-- One step of the search, once the node is popped. -/
def Inst.afterPop (cfg : Cfg) (m : Mesh K) (j : Inst K) (n : SearchNode K) : Res (Step K × Inst K) :=
  if isDominated j n then .ok (.continue, j)
  else if n.polygonTo = j.polygonTo then do
    let p ← foundPath cfg m j n
    .ok (.found p, j)
  else do
    let j ← j.successors cfg m n
    .ok (.continue, j)

theorem next_after (heap : Heap K) (cfg : Cfg) (m : Mesh K) (inst : Inst K) :
    inst.next heap cfg m = match heap.pop inst.queue with
      | none => .ok (.notFound, inst)
      | some (n, rest) => Inst.afterPop cfg m { inst with queue := rest } n := by
  unfold Inst.next Inst.afterPop
  cases heap.pop inst.queue <;> rfl

theorem after_sim (cfg : Cfg) {m : Mesh K} (hm : m.OneOtherSide) (j : Inst K) (hj : j.blocked = B)
    (n : SearchNode K) :
    j.free.afterPop cfg (m.cutOff B) n = (j.afterPop cfg m n).map (fun r => (r.1, r.2.free))
      ∧ ∀ r, j.afterPop cfg m n = .ok r → r.2.blocked = B := by
  unfold Inst.afterPop
  rw [show isDominated j.free n = isDominated j n from rfl]
  by_cases hd : isDominated j n = true
  · rw [if_pos hd, if_pos hd]
    exact ⟨rfl, by rintro r h; cases h; exact hj⟩
  rw [if_neg hd, if_neg hd]
  by_cases hp : n.polygonTo = j.polygonTo
  · rw [if_pos hp, if_pos (show n.polygonTo = j.free.polygonTo from hp), foundPath_cutOff]
    generalize foundPath cfg m j n = x
    cases x with
    | error e => exact ⟨rfl, by rintro r h; cases h⟩
    | ok p => exact ⟨rfl, by rintro r h; cases h; exact hj⟩
  · rw [if_neg hp, if_neg (show ¬ n.polygonTo = j.free.polygonTo from hp)]
    have h := successors_sim (B := B) cfg hm j hj n
    revert h
    generalize Inst.successors cfg m j n = x
    generalize Inst.successors cfg (m.cutOff B) j.free n = y
    rintro ⟨rfl, h2⟩
    cases x with
    | error e => exact ⟨rfl, by rintro r h; cases h⟩
    | ok i => exact ⟨rfl, by rintro r h; cases h; exact h2 i rfl⟩

/-- One step of the search. -/
theorem next_sim (heap : Heap K) (cfg : Cfg) {m : Mesh K} (hm : m.OneOtherSide) (inst : Inst K)
    (hi : inst.blocked = B) :
    inst.free.next heap cfg (m.cutOff B) = (inst.next heap cfg m).map (fun r => (r.1, r.2.free))
      ∧ ∀ r, inst.next heap cfg m = .ok r → r.2.blocked = B := by
  rw [next_after, next_after, show inst.free.queue = inst.queue from rfl]
  cases heap.pop inst.queue with
  | none => exact ⟨rfl, by rintro r h; cases h; exact hi⟩
  | some nr => exact after_sim cfg hm { inst with queue := nr.2 } hi nr.1

/-- The rest of the search loop, given the result of the step. -/
def afterStep (cfg : Cfg) (go : Inst K → List (Path K) → Res (Path K ⊕ List (Path K))) (ps : List (Path K)) :
    Step K → Inst K → Res (Path K ⊕ List (Path K))
  | .found p, i => if cfg.detailed then go i (ps ++ [p]) else .ok (.inl p)
  | .notFound, i =>
    match ps with
    | [] => go i []
    | p :: ps => go i (if cfg.detailed then ps ++ [p] else ps)
  | .continue, i => go i ps

theorem searchLoop_succ (heap : Heap K) (cfg : Cfg) (m : Mesh K) (n : Nat) (inst : Inst K) (ps : List (Path K)) :
    searchLoop heap cfg m (n + 1) inst ps =
      inst.next heap cfg m >>= fun r => afterStep cfg (searchLoop heap cfg m n) ps r.1 r.2 := by
  rw [searchLoop]
  congr 1
  funext r
  obtain ⟨step, i⟩ := r
  unfold afterStep
  cases step <;> cases ps <;> rfl

theorem afterStep_sim (cfg : Cfg) {go go' : Inst K → List (Path K) → Res (Path K ⊕ List (Path K))}
    (h : ∀ i ps, i.blocked = B → go' i.free ps = go i ps) (ps : List (Path K)) (step : Step K) (i : Inst K)
    (hi : i.blocked = B) : afterStep cfg go' ps step i.free = afterStep cfg go ps step i := by
  unfold afterStep
  cases step with
  | found p => simp only [h i _ hi]
  | notFound =>
    cases ps with
    | nil => exact h i _ hi
    | cons p ps => exact h i _ hi
  | «continue» => exact h i _ hi

theorem searchLoop_cutOff (heap : Heap K) (cfg : Cfg) {m : Mesh K} (hm : m.OneOtherSide) : ∀ (n : Nat)
    (inst : Inst K) (ps : List (Path K)), inst.blocked = B →
    searchLoop heap cfg (m.cutOff B) n inst.free ps = searchLoop heap cfg m n inst ps := by
  intro n
  induction n with
  | zero => intros; rw [searchLoop, searchLoop]
  | succ n ih =>
    intro inst ps hi
    obtain ⟨h1, h2⟩ := next_sim heap cfg hm inst hi
    rw [searchLoop_succ, searchLoop_succ, h1]
    clear h1
    revert h2
    generalize inst.next heap cfg m = x
    intro h2
    cases x with
    | error e => exact (rfl : (Except.error e : Res (Path K ⊕ List (Path K))) = Except.error e)
    | ok r => exact afterStep_sim cfg ih ps r.1 r.2 (h2 _ rfl)

theorem pollSteps_cutOff (heap : Heap K) (cfg : Cfg) {m : Mesh K} (hm : m.OneOtherSide) : ∀ (n : Nat)
    (inst : Inst K), inst.blocked = B →
    pollSteps heap cfg (m.cutOff B) n inst.free = (pollSteps heap cfg m n inst).map (fun r => (r.1, r.2.free)) := by
  intro n
  induction n with
  | zero => intros; rfl
  | succ n ih =>
    intro inst hi
    obtain ⟨h1, h2⟩ := next_sim heap cfg hm inst hi
    simp only [pollSteps]
    rw [h1]
    clear h1
    revert h2
    generalize inst.next heap cfg m = x
    intro h2
    cases x with
    | error e => rfl
    | ok r =>
      obtain ⟨step, i⟩ := r
      have hb : i.blocked = B := h2 _ rfl
      simp only [Except.map, res_bind_ok]
      cases step with
      | found p => rfl
      | notFound => rfl
      | «continue» => exact ih i hb

theorem pointInEdges_cutOff (l : Layer K) (pt : Vec2 K) (es : List (UInt32 × UInt32)) :
    (l.cutOff B).pointInEdges pt es = l.pointInEdges pt es := by
  induction es with
  | nil => rfl
  | cons e es ih =>
    simp only [Layer.pointInEdges, ih]
    simp only [show (l.cutOff B).vertices = l.vertices.map (Vertex.cutOff B) from rfl, idxUnchecked_cutOffV,
      List.length_map]
    rfl

theorem locate_cutOff (bvh : Bvh K) (l : Layer K) (pt : Vec2 K) : (l.cutOff B).locate bvh pt = l.locate bvh pt := by
  have hp : ∀ p, (l.cutOff B).pointInPolygon pt p = l.pointInPolygon pt p := by
    intro p
    unfold Layer.pointInPolygon
    simp only [pointInEdges_cutOff]
  have : ∀ ps i, (l.cutOff B).scanPolygons pt i ps = l.scanPolygons pt i ps := by
    intro ps
    induction ps with
    | nil => intro i; rfl
    | cons p ps ih => intro i; simp only [Layer.scanPolygons, ih, hp]
  unfold Layer.locate Layer.locationUnit Layer.locationUnitBaked
  simp only [this, hp]
  rfl

theorem endpointPolygon_cutOff (bvh : Bvh K) (m : Mesh K) (c : Coords K) :
    (m.cutOff B).endpointPolygon bvh c = m.endpointPolygon bvh c := by
  have hn : (m.cutOff B).numbered = m.numbered.map (fun il => (il.1, il.2.cutOff B)) := by
    unfold Mesh.numbered Mesh.cutOff
    simp only [List.zipIdx_map, List.map_map]
    rfl
  have hff : ∀ {α β γ : Type} (f : β → Res (Option γ)) (g : α → β) (l : List α),
      findFirst f (l.map g) = findFirst (fun a => f (g a)) l := by
    intro α β γ f g l
    induction l with
    | nil => rfl
    | cons a l ih => simp only [List.map_cons, findFirst, ih]
  have hg : (m.cutOff B).getClosestPoint bvh c = m.getClosestPoint bvh c := by
    unfold Mesh.getClosestPoint Mesh.closestLoop closestInLayer Layer.closestInner
    split
    · rw [show (m.cutOff B).layers = m.layers.map (Layer.cutOff B) from rfl, idx_cutOff]
      simp only [locate_cutOff]
      rfl
    · rw [hn]
      simp only [hff, locate_cutOff]
      rfl
  unfold Mesh.endpointPolygon
  rw [hg]

/-- The part of a query after the island test. -/
def afterIslands (cfg : Cfg) (a b : Vec2 K) (s e : UInt32) (x : Res (Inst K))
    (go : Inst K → Res (Path K ⊕ List (Path K))) (d : Bool) : Res (Option (Path K)) :=
  if d = true then .ok none
  else if s = e then
    .ok (some (Path.mk (a.distance b) [b] (if cfg.detailed then [(b, layerOf e)] else [])))
  else
    x >>= fun inst => go inst >>= fun r =>
      match r with
      | .inl p => .ok (some p)
      | .inr paths => pickPath cfg paths

theorem pathBetween_eq (heap : Heap K) (cfg : Cfg) (m : Mesh K) (a b : Vec2 K) (s e : UInt32)
    (blocked : List UInt8) :
    m.pathBetween heap cfg a b s e blocked = m.islandsDiffer s e >>=
      afterIslands cfg a b s e (Inst.setup cfg m (a, s) (b, e) blocked)
        (fun inst => searchLoop heap cfg m m.stepBudget inst []) := by
  unfold Mesh.pathBetween
  congr 1

theorem afterIslands_sim (cfg : Cfg) (a b : Vec2 K) (s e : UInt32) {x y : Res (Inst K)}
    {f g : Inst K → Res (Path K ⊕ List (Path K))} (h : Sim B x y)
    (hfg : ∀ i, i.blocked = B → g i.free = f i) :
    afterIslands cfg a b s e y g = afterIslands cfg a b s e x f := by
  funext d
  obtain ⟨rfl, h2⟩ := h
  unfold afterIslands
  cases x with
  | error _ => rfl
  | ok inst =>
    simp only [Except.map, res_bind_ok, hfg _ (h2 inst rfl)]

/-- Queries between known polygons. -/
theorem pathBetween_cutOff (heap : Heap K) (cfg : Cfg) {m : Mesh K} (hm : m.OneOtherSide) (a b : Vec2 K)
    (s e : UInt32) (he : e ≠ u32Max) (blocked : List UInt8) :
    m.pathBetween heap cfg a b s e blocked = (m.cutOff blocked).pathBetween heap cfg a b s e [] := by
  have hl : (m.cutOff blocked).layers = m.layers.map (Layer.cutOff blocked) := rfl
  have hi : (m.cutOff blocked).islandsDiffer s e = m.islandsDiffer s e := by
    unfold Mesh.islandsDiffer
    rw [hl, idx_cutOff, List.length_map]
    rfl
  have hb : (m.cutOff blocked).stepBudget = m.stepBudget := by
    unfold Mesh.stepBudget
    rw [hl, List.map_map]
    rfl
  rw [pathBetween_eq, pathBetween_eq, hi, hb]
  rw [afterIslands_sim cfg a b s e (setup_sim (B := blocked) cfg hm (a, s) (b, e) he)
    (fun i hi => searchLoop_cutOff heap cfg hm m.stepBudget i [] hi)]

end Polyanya
