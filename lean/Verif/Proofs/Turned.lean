import Verif.Spec.Turned
import Verif.Proofs.AlikeLoc
/-
The search in a mesh that is turned as a whole (C86).
-/

namespace Polyanya

set_option linter.unusedSectionVars false

variable {K : Type} [Scalar K]

/-- A segment, turned by `T`. -/
def tn2 (T : Vec2 K → Vec2 K) (s : Vec2 K × Vec2 K) : Vec2 K × Vec2 K := (T s.1, T s.2)

def SearchNode.turned (T : Vec2 K → Vec2 K) (n : SearchNode K) : SearchNode K :=
  { n with
    path := n.path.map T
    pathWithLayers := n.pathWithLayers.map (fun q => (T q.1, T q.2.1, q.2.2))
    root := T n.root
    interval := tn2 T n.interval }

def Successor.turned (T : Vec2 K → Vec2 K) (s : Successor K) : Successor K := { s with interval := tn2 T s.interval }

def Inst.turned (T : Vec2 K → Vec2 K) (i : Inst K) : Inst K :=
  { i with
    queue := i.queue.map (SearchNode.turned T)
    nodeBuffer := i.nodeBuffer.map (SearchNode.turned T)
    rootHistory := i.rootHistory.map (fun e => (T e.1, e.2))
    start := (T i.start.1, i.start.2)
    goal := T i.goal }

section
variable {T : Vec2 K → Vec2 K} {bk : Layer K → Option (List (Aabb K))} (ht : IsTurn T)
include ht

theorem vert_idx_turned (l : Layer K) (i : Nat) :
    RR (fun a b => b = Vertex.turned T a) (idx l.vertices i) (idx (l.turned T bk).vertices i) := by
  unfold Layer.turned idx
  simp only [List.getElem?_map]
  cases l.vertices[i]? with
  | none => exact .error _
  | some v => exact .ok rfl

theorem vert_idxUnchecked_turned (l : Layer K) (i : Nat) :
    RR (fun a b => b = Vertex.turned T a) (idxUnchecked l.vertices i) (idxUnchecked (l.turned T bk).vertices i) := by
  unfold Layer.turned idxUnchecked
  simp only [List.getElem?_map]
  cases l.vertices[i]? with
  | none => exact .error _
  | some v => exact .ok rfl

/-! ### Plane geometry -/

theorem distance_turned (a b : Vec2 K) : (T a).distance (T b) = a.distance b := by
  unfold Vec2.distance Vec2.length; rw [ht.sub, ht.dot]

theorem distanceSquared_turned (a b : Vec2 K) : (T a).distanceSquared (T b) = a.distanceSquared b := by
  unfold Vec2.distanceSquared Vec2.lengthSquared; rw [ht.sub, ht.dot]

theorem side_turned (p : Vec2 K) (s : Vec2 K × Vec2 K) : side (T p) (tn2 T s) = side p s := by
  unfold side tn2; simp only [ht.sub, ht.perp]

theorem mirror_turned (p : Vec2 K) (s : Vec2 K × Vec2 K) : mirror (T p) (tn2 T s) = T (mirror p s) := by
  unfold mirror tn2 Vec2.projectOnto; simp only [ht.sub, ht.add, ht.dot, ht.smul, ht.lsmul]

theorem intersectionTime_turned (l s : Vec2 K × Vec2 K) :
    intersectionTime (tn2 T l) (tn2 T s) = intersectionTime l s := by
  unfold intersectionTime tn2; simp only [ht.sub, ht.perp]

theorem mirroredGoal_turned (r g : Vec2 K) (s : Vec2 K × Vec2 K) :
    mirroredGoal (T r) (T g) (tn2 T s) = T (mirroredGoal r g s) := by
  unfold mirroredGoal
  rw [side_turned ht, side_turned ht, mirror_turned ht]
  split <;> rfl

theorem heuristic_turned (r g : Vec2 K) (s : Vec2 K × Vec2 K) :
    heuristic (T r) (T g) (tn2 T s) = heuristic r g s := by
  unfold heuristic
  simp only [mirroredGoal_turned ht]
  have := intersectionTime_turned ht (r, mirroredGoal r g s) s
  simp only [tn2] at this ⊢
  simp only [this, ht.beq, distance_turned ht]

theorem turningPoint_turned (r g : Vec2 K) (s : Vec2 K × Vec2 K) :
    turningPoint (T r) (T g) (tn2 T s) = (turningPoint r g s).map T := by
  unfold turningPoint
  simp only [mirroredGoal_turned ht]
  have h1 := side_turned ht (mirroredGoal r g s) (r, s.1)
  have h2 := side_turned ht (mirroredGoal r g s) (r, s.2)
  simp only [tn2] at h1 h2 ⊢
  simp only [h1, h2, ht.beq]
  split
  · rfl
  split
  · rfl
  split <;> rfl

theorem lineIntersectSegment_turned (l s : Vec2 K × Vec2 K) :
    lineIntersectSegment (tn2 T l) (tn2 T s) = (lineIntersectSegment l s).map T := by
  unfold lineIntersectSegment
  simp only [intersectionTime_turned ht]
  split
  · rfl
  · simp only [tn2, ht.sub, ht.lsmul, ht.add, Option.map_some]

/-! ### Expanding a node -/

theorem rightIndex_turned (l : Layer K) (p : Polygon) (e : Vec2 K) :
    rightIndex (l.turned T bk) p (T e) = rightIndex l p e := by
  have h1 : ∀ v : UInt32 × Nat, (do
        let vx ← idx (l.turned T bk).vertices v.1.toNat
        .ok (if (vx.coords + (l.turned T bk).offset).distanceSquared (T e) <. Scalar.lit 1 3 then some v.2 else none) :
          Res (Option Nat)) = (do
        let vx ← idx l.vertices v.1.toNat
        .ok (if (vx.coords + l.offset).distanceSquared e <. Scalar.lit 1 3 then some v.2 else none)) := by
    intro v
    refine RR.eq ((vert_idx_turned ht l _).bind ?_)
    rintro x _ rfl
    rw [show (x.turned T).coords + (l.turned T bk).offset = T (x.coords + l.offset) from ht.add _ _,
      distanceSquared_turned ht]
    exact .ok rfl
  have h2 : ∀ v : UInt32 × Nat, (do
        let vx ← idx (l.turned T bk).vertices v.1.toNat
        .ok (v.2, (vx.coords + (l.turned T bk).offset).distanceSquared (T e)) : Res (Nat × K)) = (do
        let vx ← idx l.vertices v.1.toNat
        .ok (v.2, (vx.coords + l.offset).distanceSquared e)) := by
    intro v
    refine RR.eq ((vert_idx_turned ht l _).bind ?_)
    rintro x _ rfl
    rw [show (x.turned T).coords + (l.turned T bk).offset = T (x.coords + l.offset) from ht.add _ _,
      distanceSquared_turned ht]
    exact .ok rfl
  unfold rightIndex
  simp only [h1, h2]

theorem edgeStartStep_turned (root int0 sp ep : Vec2 K) (e : UInt32 × UInt32) (ty : SuccTy) :
    edgeStartStep (T root) (T int0) (T sp) (T ep) e ty =
      ((edgeStartStep root int0 sp ep e ty).1.map (Successor.turned T),
        T (edgeStartStep root int0 sp ep e ty).2.1, (edgeStartStep root int0 sp ep e ty).2.2) := by
  have h1 := side_turned ht sp (root, int0)
  have h2 := side_turned ht ep (root, int0)
  have h3 := lineIntersectSegment_turned ht (root, int0) (sp, ep)
  simp only [tn2] at h1 h2 h3
  unfold edgeStartStep
  rw [h1, h2, h3]
  cases side sp (root, int0) with
  | left => rfl
  | edge => cases side ep (root, int0) <;> rfl
  | right =>
    cases lineIntersectSegment (root, int0) (sp, ep) with
    | none => rfl
    | some it =>
      simp only [Option.map_some, distanceSquared_turned ht]
      split <;> rfl

theorem edgeEndStep_turned (root int0 int1 sp ep : Vec2 K) (e : UInt32 × UInt32) (ty : SuccTy) :
    edgeEndStep (T root) (T int0) (T int1) (T sp) (T ep) e ty =
      ((edgeEndStep root int0 int1 sp ep e ty).1.map (Successor.turned T),
        (edgeEndStep root int0 int1 sp ep e ty).2) := by
  have h1 := side_turned ht ep (root, int1)
  have h2 := side_turned ht ep (root, int0)
  have h3 := lineIntersectSegment_turned ht (root, int1) (sp, ep)
  simp only [tn2] at h1 h2 h3
  unfold edgeEndStep
  rw [h1, h2, h3]
  cases side ep (root, int1) with
  | right => rfl
  | edge => cases side ep (root, int0) <;> rfl
  | left =>
    cases lineIntersectSegment (root, int1) (sp, ep) with
    | none => rfl
    | some it =>
      simp only [if_true, Option.map_some, Option.filter_some, distanceSquared_turned ht]
      cases (tol6 <. it.distanceSquared ep) <;> rfl

theorem edgesBetweenStep_turned (l : Layer K) (n : SearchNode K) (st : List (Successor K) × SuccTy)
    (e : UInt32 × UInt32) :
    RR (fun a b => b = (a.1.map (Successor.turned T), a.2)) (edgesBetweenStep l n st e)
      (edgesBetweenStep (l.turned T bk) (n.turned T) (st.1.map (Successor.turned T), st.2) e) := by
  unfold edgesBetweenStep
  rw [show (l.turned T bk).vertices.length = l.vertices.length from List.length_map _]
  by_cases hg : (max e.1 e.2).toNat > l.vertices.length
  · rw [if_pos hg, if_pos hg]; exact .ok rfl
  rw [if_neg hg, if_neg hg]
  refine (vert_idxUnchecked_turned ht l _).bind ?_
  rintro x _ rfl
  refine (vert_idxUnchecked_turned ht l _).bind ?_
  rintro y _ rfl
  have hx : (x.turned T).coords + (l.turned T bk).offset = T (x.coords + l.offset) := ht.add _ _
  have hy : (y.turned T).coords + (l.turned T bk).offset = T (y.coords + l.offset) := ht.add _ _
  simp only [hx, hy, show (n.turned T).root = T n.root from rfl, show (n.turned T).interval.1 = T n.interval.1 from rfl,
    show (n.turned T).interval.2 = T n.interval.2 from rfl, edgeStartStep_turned ht, edgeEndStep_turned ht]
  exact .ok (by simp only [List.map_append])

theorem mesh_idx_turned (m : Mesh K) (i : Nat) :
    RR (fun a b => b = Layer.turned T bk a ∧ a ∈ m.layers) (idx m.layers i) (idx (m.turned T bk).layers i) := by
  unfold Mesh.turned idx
  simp only [List.getElem?_map]
  cases h : m.layers[i]? with
  | none => exact .error _
  | some l => exact .ok ⟨rfl, List.mem_of_getElem? h⟩

theorem edgesBetween_turned (m : Mesh K) (n : SearchNode K) :
    RR (fun a b => b = a.map (Successor.turned T)) (edgesBetween m n) (edgesBetween (m.turned T bk) (n.turned T)) := by
  unfold edgesBetween
  refine (mesh_idx_turned ht m _).bind ?_
  rintro l _ ⟨rfl, -⟩
  refine RR.bindEq fun p => ?_
  refine (mesh_idx_turned ht m _).bind ?_
  rintro pl _ ⟨rfl, -⟩
  refine (vert_idx_turned ht pl _).bind ?_
  rintro v _ rfl
  rw [show (v.turned T).coords + (pl.turned T bk).offset = T (v.coords + pl.offset) from ht.add _ _, rightIndex_turned ht]
  refine RR.bindEq fun ri => RR.bindEq fun es => ?_
  refine (RR.foldlM (R := Eq) (S := fun (a b : List (Successor K) × SuccTy) => b = (a.1.map (Successor.turned T), a.2))
    (List.forall₂_refl es) ?_ rfl).bind ?_
  · rintro e _ rfl st _ rfl
    exact edgesBetweenStep_turned ht l n st e
  · rintro st _ rfl
    exact .ok rfl

theorem histGet_turned (h : List (Vec2 K × K)) (r : Vec2 K) :
    histGet (h.map (fun e => (T e.1, e.2))) (T r) = histGet h r := by
  unfold histGet
  induction h with
  | nil => rfl
  | cons e h ih =>
    rw [List.map_cons, List.find?_cons, List.find?_cons]
    simp only [ht.beq]
    cases e.1.beq r with
    | true => rfl
    | false => exact ih

theorem histSet_turned (h : List (Vec2 K × K)) (r : Vec2 K) (v : K) :
    histSet (h.map (fun e => (T e.1, e.2))) (T r) v = (histSet h r v).map (fun e => (T e.1, e.2)) := by
  induction h with
  | nil => rfl
  | cons e h ih =>
    rw [List.map_cons, histSet, histSet]
    simp only [ht.beq]
    split
    · rfl
    · rw [List.map_cons, ih]

variable {cfg : Cfg} {m : Mesh K} (hc : cfg.detailed = true → m.UnitScale)
include hc

theorem newDistance_turned (r : Vec2 K) {n n' : SearchNode K} (h1 : n'.root = T n.root)
    (h2 : n'.polygonTo = n.polygonTo) (h3 : n'.distanceStartToRoot = n.distanceStartToRoot) :
    RR Eq (newDistance cfg m r n) (newDistance cfg (m.turned T bk) (T r) n') := by
  unfold newDistance
  rw [h1, h2, h3, ht.beq, distance_turned ht]
  split
  · exact .ok rfl
  split
  · rename_i hd
    refine (mesh_idx_turned ht m _).bind ?_
    rintro l _ ⟨rfl, hl⟩
    have hs : (l.turned T bk).scale = l.scale := rfl
    rw [hs, (hc hd).one l hl, (hc hd).cmul, (hc hd).cmul, distance_turned ht]
    exact .ok rfl
  · exact .ok rfl

theorem newHeuristic_turned (g r : Vec2 K) (s e : Vec2 K × UInt32) :
    RR Eq (newHeuristic cfg m g r s e)
      (newHeuristic cfg (m.turned T bk) (T g) (T r) (T s.1, s.2) (T e.1, e.2)) := by
  unfold newHeuristic
  have := heuristic_turned ht r g (s.1, e.1)
  simp only [tn2] at this
  split
  · rename_i hd
    refine (mesh_idx_turned ht m _).bind ?_
    rintro l _ ⟨rfl, hl⟩
    refine (mesh_idx_turned ht m _).bind ?_
    rintro k _ ⟨rfl, hk⟩
    have hs : ∀ l : Layer K, (l.turned T bk).scale = l.scale := fun _ => rfl
    rw [hs, hs, (hc hd).one l hl, (hc hd).one k hk]
    simp only [(hc hd).cmul, this]
    exact .ok rfl
  · simp only [this]
    exact .ok rfl

theorem addNode_turned (i : Inst K) (r : Vec2 K) (o : UInt32) (s e : Vec2 K × UInt32) {n n' : SearchNode K}
    (h1 : n'.root = T n.root) (h2 : n'.polygonTo = n.polygonTo) (h3 : n'.distanceStartToRoot = n.distanceStartToRoot)
    (h4 : n'.path = n.path.map T)
    (h5 : n'.pathWithLayers = n.pathWithLayers.map (fun q => (T q.1, T q.2.1, q.2.2))) :
    RR (fun a b => b = a.turned T) (i.addNode cfg m r o s e n)
      ((i.turned T).addNode cfg (m.turned T bk) (T r) o (T s.1, s.2) (T e.1, e.2) n') := by
  have hpl : newPathWithLayers cfg (T r) o (T s.1) (T e.1) n' =
      (newPathWithLayers cfg r o s.1 e.1 n).map (fun q => (T q.1, T q.2.1, q.2.2)) := by
    unfold newPathWithLayers
    rw [h1, h2, h5, ht.beq]
    split
    · simp only
      split <;> split <;> simp
    · rfl
  unfold Inst.addNode
  refine (newDistance_turned ht hc r h1 h2 h3).bind ?_
  rintro f _ rfl
  refine (newHeuristic_turned ht hc i.goal r s e).bind ?_
  rintro h _ rfl
  split
  · exact .ok rfl
  simp only
  rw [h1, h2, h4, hpl, ht.beq]
  have hg : histGet (i.turned T).rootHistory (T r) = histGet i.rootHistory r := histGet_turned ht _ _
  have hs : ∀ v, histSet (i.turned T).rootHistory (T r) v =
      (histSet i.rootHistory r v).map (fun e => (T e.1, e.2)) := fun v => histSet_turned ht _ _ _
  have hp : (if r.beq n.root = true then n.path.map T else n.path.map T ++ [T r]) =
      (if r.beq n.root = true then n.path else n.path ++ [r]).map T := by
    split <;> simp
  rw [hg, hs, hp]
  have hbuf : ∀ k : SearchNode K, (i.turned T).nodeBuffer ++ [k.turned T] = (i.nodeBuffer ++ [k]).map (SearchNode.turned T) := by
    intro k; simp [Inst.turned]
  split
  · split
    · exact .ok rfl
    · refine .ok ?_
      simp only [Inst.turned, SearchNode.turned, List.map_append, List.map_cons, List.map_nil, tn2]
  · refine .ok ?_
    simp only [Inst.turned, SearchNode.turned, List.map_append, List.map_cons, List.map_nil, tn2]

theorem successorRoot_turned (B : List UInt8) (n : SearchNode K) (l : Layer K) (x y : Vertex K) (s : Successor K) :
    RR (fun a b => b = a.map T) (successorRoot m B n l x y s)
      (successorRoot (m.turned T bk) B (n.turned T) (l.turned T bk) (x.turned T) (y.turned T) (s.turned T)) := by
  unfold successorRoot
  rw [show (s.turned T).interval.1 = T s.interval.1 from rfl, show (s.turned T).interval.2 = T s.interval.2 from rfl,
    show (s.turned T).ty = s.ty from rfl, show (n.turned T).interval.1 = T n.interval.1 from rfl,
    show (n.turned T).interval.2 = T n.interval.2 from rfl, show (n.turned T).root = T n.root from rfl,
    show (n.turned T).previousPolygonLayer = n.previousPolygonLayer from rfl, show (n.turned T).edge = n.edge from rfl,
    show (x.turned T).coords + (l.turned T bk).offset = T (x.coords + l.offset) from ht.add _ _,
    show (y.turned T).coords + (l.turned T bk).offset = T (y.coords + l.offset) from ht.add _ _, distanceSquared_turned ht,
    distanceSquared_turned ht]
  cases s.ty with
  | observable => exact .ok rfl
  | rightNonObservable =>
    simp only
    cases (tol10 <. s.interval.1.distanceSquared (x.coords + l.offset)) with
    | true => exact .ok rfl
    | false =>
      refine (mesh_idx_turned ht m _).bind ?_
      rintro pl _ ⟨rfl, -⟩
      refine (vert_idx_turned ht pl _).bind ?_
      rintro v _ rfl
      rw [show canTurnAt B (v.turned T) = canTurnAt B v from rfl, show (v.turned T).coords + (pl.turned T bk).offset = T (v.coords + pl.offset) from ht.add _ _, distanceSquared_turned ht]
      cases (canTurnAt B v && (v.coords + pl.offset).distanceSquared n.interval.1 <. tol10) with
      | true => exact .ok rfl
      | false => exact .ok rfl
  | leftNonObservable =>
    simp only
    cases (tol10 <. s.interval.2.distanceSquared (y.coords + l.offset)) with
    | true => exact .ok rfl
    | false =>
      refine (mesh_idx_turned ht m _).bind ?_
      rintro pl _ ⟨rfl, -⟩
      refine (vert_idx_turned ht pl _).bind ?_
      rintro v _ rfl
      rw [show canTurnAt B (v.turned T) = canTurnAt B v from rfl, show (v.turned T).coords + (pl.turned T bk).offset = T (v.coords + pl.offset) from ht.add _ _, distanceSquared_turned ht]
      cases (canTurnAt B v && (v.coords + pl.offset).distanceSquared n.interval.2 <. tol10) with
      | true => exact .ok rfl
      | false => exact .ok rfl

theorem expandOne_turned (n : SearchNode K) (i : Inst K) (s : Successor K) :
    RR (fun a b => b = a.turned T) (expandOne cfg m n i s)
      (expandOne cfg (m.turned T bk) (n.turned T) (i.turned T) (s.turned T)) := by
  unfold expandOne
  refine (mesh_idx_turned ht m _).bind ?_
  rintro l _ ⟨rfl, -⟩
  refine (vert_idxUnchecked_turned ht l _).bind ?_
  rintro x _ rfl
  refine (vert_idxUnchecked_turned ht l _).bind ?_
  rintro y _ rfl
  have e0 : otherSideOf (x.turned T) (y.turned T) n.polygonTo = otherSideOf x y n.polygonTo := rfl
  have e1 : (n.turned T).polygonTo = n.polygonTo := rfl
  have e2 : (i.turned T).blocked = i.blocked := rfl
  have e3 : (i.turned T).polygonTo = i.polygonTo := rfl
  have e4 : (n.turned T).polygonFrom = n.polygonFrom := rfl
  simp only [e1, e0, e2, e3, e4]
  generalize otherSideOf x y n.polygonTo = o
  split
  · exact .ok rfl
  split
  · exact .ok rfl
  have hdead : RR Eq (if i.polygonTo ≠ o then do
        let l ← idx m.layers (layerOf o).toNat
        let p ← idx l.polygons (polygonOf o).toNat
        .ok p.isOneWay
      else .ok false : Res Bool) (if i.polygonTo ≠ o then do
        let l ← idx (m.turned T bk).layers (layerOf o).toNat
        let p ← idx l.polygons (polygonOf o).toNat
        .ok p.isOneWay
      else .ok false : Res Bool) := by
    split
    · refine (mesh_idx_turned ht m _).bind ?_
      rintro l _ ⟨rfl, -⟩
      exact RR.refl _
    · exact .ok rfl
  refine hdead.bind ?_
  rintro d _ rfl
  split
  · exact .ok rfl
  split
  · exact .ok rfl
  refine (successorRoot_turned ht hc i.blocked n l x y s).bind ?_
  rintro r _ rfl
  cases r with
  | none => exact .ok rfl
  | some root =>
    simp only [Option.map_some]
    rw [show (s.turned T).interval.1.distanceSquared (s.turned T).interval.2 = s.interval.1.distanceSquared s.interval.2
      from distanceSquared_turned ht _ _]
    split
    · exact .ok rfl
    · exact addNode_turned ht hc i root o (s.interval.1, s.edge.1) (s.interval.2, s.edge.2) (n := n) (n' := n.turned T)
        rfl rfl rfl rfl rfl

theorem isReverse_turned (n k : SearchNode K) : isReverse (n.turned T) (k.turned T) = isReverse n k := by
  unfold isReverse
  simp only [SearchNode.turned, tn2, ht.beq]

theorem successorsLoop_turned : ∀ (fuel : Nat) (visited : List UInt32) (n : SearchNode K) (i : Inst K),
    RR (fun a b => b = a.turned T) (successorsLoop cfg m fuel visited n i)
      (successorsLoop cfg (m.turned T bk) fuel visited (n.turned T) (i.turned T)) := by
  intro fuel
  induction fuel with
  | zero => intros; exact .error _
  | succ fuel ih =>
    intro visited n i
    simp only [successorsLoop]
    refine (edgesBetween_turned ht m n).bind ?_
    rintro succs _ rfl
    have hs : List.Forall₂ (fun s s' => s' = Successor.turned T s) succs (succs.map (Successor.turned T)) := by
      rw [List.forall₂_map_right_iff]
      exact List.forall₂_same.2 fun _ _ => rfl
    refine (RR.foldlM (S := fun (a b : Inst K) => b = a.turned T) hs ?_ rfl).bind ?_
    · rintro s _ rfl i _ rfl
      exact expandOne_turned ht hc n i s
    · rintro i _ rfl
      rw [show (i.turned T).nodeBuffer = i.nodeBuffer.map (SearchNode.turned T) from rfl]
      cases hb : i.nodeBuffer with
      | nil => exact .ok rfl
      | cons k ks =>
        cases ks with
        | cons _ _ => exact .ok rfl
        | nil =>
          simp only [List.map_cons, List.map_nil, isReverse_turned ht hc,
            show (k.turned T).polygonTo = k.polygonTo from rfl, show (i.turned T).polygonTo = i.polygonTo from rfl]
          split
          · split
            · exact .ok rfl
            · split
              · exact .ok rfl
              · exact ih _ k { i with nodeBuffer := [] }
          · exact .ok rfl

theorem flushNodes_turned (i : Inst K) : (i.turned T).flushNodes = i.flushNodes.turned T := by
  unfold Inst.flushNodes
  simp only [Inst.turned, List.map_append, List.map_nil]

theorem successors_turned (n : SearchNode K) (i : Inst K) :
    RR (fun a b => b = a.turned T) (i.successors cfg m n) ((i.turned T).successors cfg (m.turned T bk) (n.turned T)) := by
  unfold Inst.successors
  refine (successorsLoop_turned ht hc _ _ n i).bind ?_
  rintro i _ rfl
  exact .ok (flushNodes_turned ht hc i)

theorem setupEdge_turned (l : Layer K) (src dst : Vec2 K × UInt32) (i : Inst K) (e : UInt32 × UInt32) :
    RR (fun a b => b = a.turned T) (setupEdge cfg m l src dst (emptyNode src) i e)
      (setupEdge cfg (m.turned T bk) (l.turned T bk) (T src.1, src.2) (T dst.1, dst.2) (emptyNode (T src.1, src.2))
        (i.turned T) e) := by
  unfold setupEdge
  rw [show (l.turned T bk).vertices = l.vertices.map (Vertex.turned T) from rfl, List.getElem?_map, List.getElem?_map]
  cases l.vertices[e.1.toNat]? with
  | none => exact .ok rfl
  | some x =>
    cases l.vertices[e.2.toNat]? with
    | none => exact .ok rfl
    | some y =>
      simp only [Option.map_some, show (i.turned T).blocked = i.blocked from rfl,
        show otherSideOf (x.turned T) (y.turned T) src.2 = otherSideOf x y src.2 from rfl]
      generalize otherSideOf x y src.2 = o
      split
      · exact .ok rfl
      have hgo : RR Eq (if o = dst.2 then .ok true
            else if o = u32Max then .ok false
            else do
              let l ← idx m.layers (layerOf o).toNat
              let p ← idx l.polygons (polygonOf o).toNat
              .ok (!p.isOneWay) : Res Bool) (if o = dst.2 then .ok true
            else if o = u32Max then .ok false
            else do
              let l ← idx (m.turned T bk).layers (layerOf o).toNat
              let p ← idx l.polygons (polygonOf o).toNat
              .ok (!p.isOneWay) : Res Bool) := by
        split
        · exact .ok rfl
        split
        · exact .ok rfl
        refine (mesh_idx_turned ht m _).bind ?_
        rintro k _ ⟨rfl, -⟩
        exact RR.refl _
      refine hgo.bind ?_
      rintro d _ rfl
      split
      · rw [show (x.turned T).coords + (l.turned T bk).offset = T (x.coords + l.offset) from ht.add _ _,
          show (y.turned T).coords + (l.turned T bk).offset = T (y.coords + l.offset) from ht.add _ _]
        exact addNode_turned ht hc i src.1 o (x.coords + l.offset, e.1) (y.coords + l.offset, e.2) (n := emptyNode src)
          (n' := emptyNode (T src.1, src.2)) rfl rfl rfl rfl rfl
      · exact .ok rfl

theorem setup_turned (src dst : Vec2 K × UInt32) (B : List UInt8) :
    RR (fun a b => b = a.turned T) (Inst.setup cfg m src dst B)
      (Inst.setup cfg (m.turned T bk) (T src.1, src.2) (T dst.1, dst.2) B) := by
  unfold Inst.setup
  refine (mesh_idx_turned ht m _).bind ?_
  rintro l _ ⟨rfl, -⟩
  refine RR.bindEq fun p => RR.bindEq fun es => ?_
  refine (RR.foldlM (R := Eq) (S := fun (a b : Inst K) => b = a.turned T) (List.forall₂_refl es) ?_ rfl).bind ?_
  · rintro e _ rfl i _ rfl
    exact setupEdge_turned ht hc l src dst i e
  · rintro i _ rfl
    exact .ok (flushNodes_turned ht hc i)

/-! ### The path -/

theorem resolveLayers_turned (last : Vec2 K) : ∀ (ps : List (Vec2 K × Vec2 K × UInt8)) (frm : Vec2 K),
    resolveLayers (T last) (T frm) (ps.map (fun q => (T q.1, T q.2.1, q.2.2))) =
      (resolveLayers last frm ps).map (fun q => (T q.1, q.2)) := by
  intro ps
  induction ps with
  | nil => intro frm; rfl
  | cons p ps ih =>
    intro frm
    rw [List.map_cons, resolveLayers, resolveLayers]
    simp only [ht.beq]
    have hf : (((ps.map (fun q : Vec2 K × Vec2 K × UInt8 => (T q.1, T q.2.1, q.2.2))).find? (fun q => q.1.beq q.2.1)).map (·.1)).getD (T last) =
        T (((ps.find? (fun q => q.1.beq q.2.1)).map (·.1)).getD last) := by
      rw [List.find?_map]
      have : ((fun q : Vec2 K × Vec2 K × UInt8 => q.1.beq q.2.1) ∘
          fun q : Vec2 K × Vec2 K × UInt8 => (T q.1, T q.2.1, q.2.2)) =
          fun q : Vec2 K × Vec2 K × UInt8 => q.1.beq q.2.1 := by
        funext q
        simp only [Function.comp, ht.beq]
      rw [this]
      cases ps.find? (fun q => q.1.beq q.2.1) <;> rfl
    split
    · rw [List.map_cons, ih]
    · rw [hf]
      have := lineIntersectSegment_turned ht (frm, ((ps.find? (fun q => q.1.beq q.2.1)).map (·.1)).getD last) (p.1, p.2.1)
      simp only [tn2] at this
      rw [this]
      cases lineIntersectSegment (frm, ((ps.find? (fun q => q.1.beq q.2.1)).map (·.1)).getD last) (p.1, p.2.1) with
      | none => exact ih frm
      | some it => simp only [Option.map_some, List.map_cons, ih]

theorem dropClose_turned : ∀ ps : List (Vec2 K × UInt8),
    dropClose (ps.map (fun q => (T q.1, q.2))) = (dropClose ps).map (fun q => (T q.1, q.2))
  | [] => rfl
  | [p] => rfl
  | p :: n :: rest => by
    have ih := dropClose_turned (n :: rest)
    simp only [List.map_cons] at ih ⊢
    rw [dropClose, dropClose]
    simp only [distanceSquared_turned ht]
    split
    · exact ih
    · rw [ih, List.map_cons]

theorem detailedLength_turned (hd : cfg.detailed = true) : ∀ (ps : List (Vec2 K × UInt8)) (acc : K) (cur : Vec2 K × UInt8),
    RR Eq (detailedLength m acc cur ps)
      (detailedLength (m.turned T bk) acc (T cur.1, cur.2) (ps.map (fun q => (T q.1, q.2)))) := by
  intro ps
  induction ps with
  | nil => intro acc cur; exact .ok rfl
  | cons p ps ih =>
    intro acc cur
    simp only [List.map_cons, detailedLength]
    refine (mesh_idx_turned ht m _).bind ?_
    rintro l _ ⟨rfl, hl⟩
    rw [show (l.turned T bk).scale = l.scale from rfl, (hc hd).one l hl]
    simp only [(hc hd).cmul, distance_turned ht]
    exact ih _ p

theorem foundPath_turned (i : Inst K) (n : SearchNode K) :
    RR (fun a b => b = Path.turned T a) (foundPath cfg m i n) (foundPath cfg (m.turned T bk) (i.turned T) (n.turned T)) := by
  have he : pathEnd (i.turned T) (n.turned T) = (pathEnd i n).map (fun q => (T q.1, q.2)) := by
    unfold pathEnd
    rw [show turningPoint (n.turned T).root (i.turned T).goal (n.turned T).interval =
      (turningPoint n.root i.goal n.interval).map T from turningPoint_turned ht _ _ _]
    cases turningPoint n.root i.goal n.interval <;> rfl
  have hp : (n.turned T).path ++ (pathEnd (i.turned T) (n.turned T)).map (·.1) =
      (n.path ++ (pathEnd i n).map (·.1)).map T := by
    rw [he, List.map_append, List.map_map, List.map_map]
    rfl
  unfold foundPath
  simp only [hp]
  split
  · rename_i hd
    have hl : ((pathEnd (i.turned T) (n.turned T)).head?.map (·.1)).getD (i.turned T).goal =
        T (((pathEnd i n).head?.map (·.1)).getD i.goal) := by
      rw [he]
      cases pathEnd i n <;> rfl
    have hr : dropClose (resolveLayers (T (((pathEnd i n).head?.map (·.1)).getD i.goal)) (i.turned T).start.1
        (n.turned T).pathWithLayers ++ pathEnd (i.turned T) (n.turned T)) =
        (dropClose (resolveLayers (((pathEnd i n).head?.map (·.1)).getD i.goal) i.start.1 n.pathWithLayers ++
          pathEnd i n)).map (fun q => (T q.1, q.2)) := by
      rw [he, ← dropClose_turned ht hc, List.map_append]
      congr 2
      exact resolveLayers_turned ht hc _ _ _
    rw [hl, hr]
    refine (detailedLength_turned ht hc hd _ _ i.start).bind ?_
    rintro len _ rfl
    exact .ok rfl
  · exact .ok rfl

def Step.turned (T : Vec2 K → Vec2 K) : Step K → Step K
  | .found p => .found (p.turned T)
  | .notFound => .notFound
  | .continue => .continue

theorem nextBody_turned (j : Inst K) (n : SearchNode K) :
    RR (fun a b => b = (Step.turned T a.1, Inst.turned T a.2))
      (if isDominated j n then .ok (.continue, j)
        else if n.polygonTo = j.polygonTo then do
          let p ← foundPath cfg m j n
          .ok (.found p, j)
        else do
          let j ← j.successors cfg m n
          .ok (.continue, j))
      (if isDominated (j.turned T) (n.turned T) then .ok (.continue, j.turned T)
        else if (n.turned T).polygonTo = (j.turned T).polygonTo then do
          let p ← foundPath cfg (m.turned T bk) (j.turned T) (n.turned T)
          .ok (.found p, j.turned T)
        else do
          let j ← (j.turned T).successors cfg (m.turned T bk) (n.turned T)
          .ok (.continue, j)) := by
  have hdom : isDominated (j.turned T) (n.turned T) = isDominated j n := by
    unfold isDominated
    rw [show histGet (j.turned T).rootHistory (n.turned T).root = histGet j.rootHistory n.root from histGet_turned ht _ _]
    rfl
  rw [hdom, show (n.turned T).polygonTo = n.polygonTo from rfl, show (j.turned T).polygonTo = j.polygonTo from rfl]
  split
  · exact .ok rfl
  split
  · refine (foundPath_turned ht hc _ n).bind ?_
    rintro p _ rfl
    exact .ok rfl
  · refine (successors_turned ht hc n _).bind ?_
    rintro j _ rfl
    exact .ok rfl

theorem next_turned {heap : Heap K} (hh : heap.ByCost) (i : Inst K) :
    RR (fun a b => b = (Step.turned T a.1, Inst.turned T a.2)) (i.next heap cfg m)
      ((i.turned T).next heap cfg (m.turned T bk)) := by
  unfold Inst.next
  have hq : List.Forall₂ (fun n n' => n' = SearchNode.turned T n) i.queue (i.turned T).queue := by
    change List.Forall₂ _ i.queue (i.queue.map (SearchNode.turned T))
    rw [List.forall₂_map_right_iff]
    exact List.forall₂_same.2 fun _ _ => rfl
  rcases hh (fun n n' => n' = SearchNode.turned T n) (fun n n' h => by rw [h]; exact ⟨rfl, rfl⟩) _ _ hq with
    ⟨h1, h2⟩ | ⟨n, r, n', r', h1, h2, hn, hr⟩
  · rw [h1, h2]
    exact .ok rfl
  · have hr' : r' = r.map (SearchNode.turned T) := by
      rw [← List.forall₂_eq_eq_eq, List.forall₂_map_right_iff]
      exact hr.flip
    subst hn hr'
    rw [h1, h2]
    exact nextBody_turned ht hc { i with queue := r } n

/-- The result of a search loop, moved. -/
def loopTurned (T : Vec2 K → Vec2 K) : Path K ⊕ List (Path K) → Path K ⊕ List (Path K)
  | .inl p => .inl (p.turned T)
  | .inr ps => .inr (ps.map (Path.turned T))

theorem searchLoop_turned {heap : Heap K} (hh : heap.ByCost) : ∀ (k : Nat) (i : Inst K) (ps : List (Path K)),
    RR (fun a b => b = loopTurned T a) (searchLoop heap cfg m k i ps)
      (searchLoop heap cfg (m.turned T bk) k (i.turned T) (ps.map (Path.turned T))) := by
  intro k
  induction k with
  | zero => intro i ps; rw [searchLoop, searchLoop]; exact .ok rfl
  | succ k ih =>
    intro i ps
    rw [searchLoop_succ, searchLoop_succ]
    refine (next_turned ht hc hh i).bind ?_
    rintro ⟨step, j⟩ _ rfl
    unfold afterStep
    cases step with
    | found p =>
      simp only [Step.turned]
      split
      · have := ih j (ps ++ [p])
        rw [List.map_append] at this
        exact this
      · exact .ok rfl
    | notFound =>
      simp only [Step.turned]
      cases ps with
      | nil => exact ih j []
      | cons p ps =>
        simp only [List.map_cons]
        split
        · have := ih j (ps ++ [p])
          rw [List.map_append] at this
          exact this
        · exact ih j ps
    | «continue» => exact ih j ps

theorem pollSteps_turned {heap : Heap K} (hh : heap.ByCost) : ∀ (k : Nat) (i : Inst K),
    RR (fun a b => b = (a.1.map (Option.map (Path.turned T)), a.2.turned T)) (pollSteps heap cfg m k i)
      (pollSteps heap cfg (m.turned T bk) k (i.turned T)) := by
  intro k
  induction k with
  | zero => intro i; exact .ok rfl
  | succ k ih =>
    intro i
    simp only [pollSteps]
    refine (next_turned ht hc hh i).bind ?_
    rintro ⟨step, j⟩ _ rfl
    cases step with
    | found p => exact .ok rfl
    | notFound => exact .ok rfl
    | «continue» => exact ih j

theorem islandsDiffer_turned (s e : UInt32) : (m.turned T bk).islandsDiffer s e = m.islandsDiffer s e := by
  unfold Mesh.islandsDiffer
  rw [show (m.turned T bk).layers.length = m.layers.length from List.length_map _]
  split
  · refine RR.eq ((mesh_idx_turned ht m _).bind ?_)
    rintro l _ ⟨rfl, -⟩
    exact RR.refl _
  · rfl

theorem islandsDifferAsync_turned (s e : UInt32) : (m.turned T bk).islandsDifferAsync s e = m.islandsDifferAsync s e := by
  unfold Mesh.islandsDifferAsync
  split
  · refine RR.eq ((mesh_idx_turned ht m _).bind ?_)
    rintro l _ ⟨rfl, -⟩
    exact RR.refl _
  · rfl

theorem pickPath_turned (ps : List (Path K)) :
    RR (fun a b => b = a.map (Path.turned T)) (pickPath cfg ps) (pickPath cfg (ps.map (Path.turned T))) := by
  unfold pickPath
  split
  · rw [List.length_map, List.any_map]
    rw [show ((fun p : Path K => Scalar.isNan p.length) ∘ Path.turned T) = fun p : Path K => Scalar.isNan p.length from rfl]
    split
    · exact .error _
    · refine .ok ?_
      rw [← List.head?_map, List.map_mergeSort]
      intro a _ b _
      rfl
  · refine .ok ?_
    rw [List.head?_map]

theorem pathBetween_turned {heap : Heap K} (hh : heap.ByCost) (a b : Vec2 K) (s e : UInt32) (B : List UInt8) :
    RR (fun p q => q = p.map (Path.turned T)) (m.pathBetween heap cfg a b s e B)
      ((m.turned T bk).pathBetween heap cfg (T a) (T b) s e B) := by
  rw [pathBetween_eq, pathBetween_eq, islandsDiffer_turned ht hc]
  refine RR.bindEq fun d => ?_
  have hb : (m.turned T bk).stepBudget = m.stepBudget := by
    unfold Mesh.stepBudget Mesh.turned
    rw [List.map_map]
    rfl
  unfold afterIslands
  rw [hb]
  split
  · exact .ok rfl
  split
  · refine .ok ?_
    simp only [Option.map_some, Path.turned, distance_turned ht, List.map_cons, List.map_nil]
    split <;> rfl
  refine (setup_turned ht hc (a, s) (b, e) B).bind ?_
  rintro i _ rfl
  refine (searchLoop_turned ht hc hh _ i []).bind ?_
  rintro r _ rfl
  cases r with
  | inl p => exact .ok rfl
  | inr ps => exact pickPath_turned ht hc ps

end

end Polyanya
