import Verif.Spec.Moved
import Verif.Proofs.AlikeLoc
/-
The search in a mesh that is moved as a whole (C65).
-/

namespace Polyanya

set_option linter.unusedSectionVars false

variable {K : Type} [Scalar K]

/-- A segment, moved by `t`. -/
def mv2 (t : Vec2 K) (s : Vec2 K × Vec2 K) : Vec2 K × Vec2 K := (s.1 + t, s.2 + t)

def SearchNode.moved (t : Vec2 K) (n : SearchNode K) : SearchNode K :=
  { n with
    path := n.path.map (· + t)
    pathWithLayers := n.pathWithLayers.map (fun q => (q.1 + t, q.2.1 + t, q.2.2))
    root := n.root + t
    interval := mv2 t n.interval }

def Successor.moved (t : Vec2 K) (s : Successor K) : Successor K := { s with interval := mv2 t s.interval }

def Inst.moved (t : Vec2 K) (i : Inst K) : Inst K :=
  { i with
    queue := i.queue.map (SearchNode.moved t)
    nodeBuffer := i.nodeBuffer.map (SearchNode.moved t)
    rootHistory := i.rootHistory.map (fun e => (e.1 + t, e.2))
    start := (i.start.1 + t, i.start.2)
    goal := i.goal + t }

section
variable {t : Vec2 K} (ht : Shift t)
include ht

/-! ### Plane geometry -/

theorem distance_moved (a b : Vec2 K) : (a + t).distance (b + t) = a.distance b := by
  unfold Vec2.distance; rw [ht.sub]

theorem distanceSquared_moved (a b : Vec2 K) : (a + t).distanceSquared (b + t) = a.distanceSquared b := by
  unfold Vec2.distanceSquared; rw [ht.sub]

theorem side_moved (p : Vec2 K) (s : Vec2 K × Vec2 K) : side (p + t) (mv2 t s) = side p s := by
  unfold side mv2; simp only [ht.sub]

theorem mirror_moved (p : Vec2 K) (s : Vec2 K × Vec2 K) : mirror (p + t) (mv2 t s) = mirror p s + t := by
  unfold mirror mv2; simp only [ht.sub, ht.add]

theorem intersectionTime_moved (l s : Vec2 K × Vec2 K) :
    intersectionTime (mv2 t l) (mv2 t s) = intersectionTime l s := by
  unfold intersectionTime mv2; simp only [ht.sub]

theorem mirroredGoal_moved (r g : Vec2 K) (s : Vec2 K × Vec2 K) :
    mirroredGoal (r + t) (g + t) (mv2 t s) = mirroredGoal r g s + t := by
  unfold mirroredGoal
  rw [side_moved ht, side_moved ht, mirror_moved ht]
  split <;> rfl

theorem heuristic_moved (r g : Vec2 K) (s : Vec2 K × Vec2 K) :
    heuristic (r + t) (g + t) (mv2 t s) = heuristic r g s := by
  unfold heuristic
  simp only [mirroredGoal_moved ht]
  have := intersectionTime_moved ht (r, mirroredGoal r g s) s
  simp only [mv2] at this ⊢
  simp only [this, ht.beq, distance_moved ht]

theorem turningPoint_moved (r g : Vec2 K) (s : Vec2 K × Vec2 K) :
    turningPoint (r + t) (g + t) (mv2 t s) = (turningPoint r g s).map (· + t) := by
  unfold turningPoint
  simp only [mirroredGoal_moved ht]
  have h1 := side_moved ht (mirroredGoal r g s) (r, s.1)
  have h2 := side_moved ht (mirroredGoal r g s) (r, s.2)
  simp only [mv2] at h1 h2 ⊢
  simp only [h1, h2, ht.beq]
  split
  · rfl
  split
  · rfl
  split <;> rfl

theorem lineIntersectSegment_moved (l s : Vec2 K × Vec2 K) :
    lineIntersectSegment (mv2 t l) (mv2 t s) = (lineIntersectSegment l s).map (· + t) := by
  unfold lineIntersectSegment
  simp only [intersectionTime_moved ht]
  split
  · rfl
  · simp only [mv2, ht.sub, ht.add, Option.map_some]

/-! ### Expanding a node -/

theorem rightIndex_moved (l : Layer K) (p : Polygon) (e : Vec2 K) :
    rightIndex (l.moved t) p (e + t) = rightIndex l p e := by
  unfold rightIndex
  simp only [Layer.moved, ht.assoc, distanceSquared_moved ht]

theorem edgeStartStep_moved (root int0 sp ep : Vec2 K) (e : UInt32 × UInt32) (ty : SuccTy) :
    edgeStartStep (root + t) (int0 + t) (sp + t) (ep + t) e ty =
      ((edgeStartStep root int0 sp ep e ty).1.map (Successor.moved t),
        (edgeStartStep root int0 sp ep e ty).2.1 + t, (edgeStartStep root int0 sp ep e ty).2.2) := by
  have h1 := side_moved ht sp (root, int0)
  have h2 := side_moved ht ep (root, int0)
  have h3 := lineIntersectSegment_moved ht (root, int0) (sp, ep)
  simp only [mv2] at h1 h2 h3
  unfold edgeStartStep
  rw [h1, h2, h3]
  cases side sp (root, int0) with
  | left => rfl
  | edge => cases side ep (root, int0) <;> rfl
  | right =>
    cases lineIntersectSegment (root, int0) (sp, ep) with
    | none => rfl
    | some it =>
      simp only [Option.map_some, distanceSquared_moved ht]
      split <;> rfl

theorem edgeEndStep_moved (root int0 int1 sp ep : Vec2 K) (e : UInt32 × UInt32) (ty : SuccTy) :
    edgeEndStep (root + t) (int0 + t) (int1 + t) (sp + t) (ep + t) e ty =
      ((edgeEndStep root int0 int1 sp ep e ty).1.map (Successor.moved t),
        (edgeEndStep root int0 int1 sp ep e ty).2) := by
  have h1 := side_moved ht ep (root, int1)
  have h2 := side_moved ht ep (root, int0)
  have h3 := lineIntersectSegment_moved ht (root, int1) (sp, ep)
  simp only [mv2] at h1 h2 h3
  unfold edgeEndStep
  rw [h1, h2, h3]
  cases side ep (root, int1) with
  | right => rfl
  | edge => cases side ep (root, int0) <;> rfl
  | left =>
    cases lineIntersectSegment (root, int1) (sp, ep) with
    | none => rfl
    | some it =>
      simp only [if_true, Option.map_some, Option.filter_some, distanceSquared_moved ht]
      cases (tol6 <. it.distanceSquared ep) <;> rfl

theorem edgesBetweenStep_moved (l : Layer K) (n : SearchNode K) (st : List (Successor K) × SuccTy)
    (e : UInt32 × UInt32) :
    RR (fun a b => b = (a.1.map (Successor.moved t), a.2)) (edgesBetweenStep l n st e)
      (edgesBetweenStep (l.moved t) (n.moved t) (st.1.map (Successor.moved t), st.2) e) := by
  unfold edgesBetweenStep
  rw [show (l.moved t).vertices = l.vertices from rfl, show (l.moved t).offset = l.offset + t from rfl]
  by_cases hg : (max e.1 e.2).toNat > l.vertices.length
  · rw [if_pos hg, if_pos hg]; exact .ok rfl
  rw [if_neg hg, if_neg hg]
  refine RR.bindEq fun x => RR.bindEq fun y => ?_
  simp only [show (n.moved t).root = n.root + t from rfl, show (n.moved t).interval.1 = n.interval.1 + t from rfl,
    show (n.moved t).interval.2 = n.interval.2 + t from rfl, ht.assoc, edgeStartStep_moved ht, edgeEndStep_moved ht]
  exact .ok (by simp only [List.map_append])

theorem mesh_idx_moved (m : Mesh K) (i : Nat) :
    RR (fun a b => b = Layer.moved t a ∧ a ∈ m.layers) (idx m.layers i) (idx (m.moved t).layers i) := by
  unfold Mesh.moved idx
  simp only [List.getElem?_map]
  cases h : m.layers[i]? with
  | none => exact .error _
  | some l => exact .ok ⟨rfl, List.mem_of_getElem? h⟩

theorem edgesBetween_moved (m : Mesh K) (n : SearchNode K) :
    RR (fun a b => b = a.map (Successor.moved t)) (edgesBetween m n) (edgesBetween (m.moved t) (n.moved t)) := by
  unfold edgesBetween
  refine (mesh_idx_moved ht m _).bind ?_
  rintro l _ ⟨rfl, -⟩
  refine RR.bindEq fun p => ?_
  refine (mesh_idx_moved ht m _).bind ?_
  rintro pl _ ⟨rfl, -⟩
  refine RR.bindEq fun v => ?_
  rw [show v.coords + (pl.moved t).offset = (v.coords + pl.offset) + t from ht.assoc _ _, rightIndex_moved ht]
  refine RR.bindEq fun ri => RR.bindEq fun es => ?_
  refine (RR.foldlM (R := Eq) (S := fun (a b : List (Successor K) × SuccTy) => b = (a.1.map (Successor.moved t), a.2))
    (List.forall₂_refl es) ?_ rfl).bind ?_
  · rintro e _ rfl st _ rfl
    exact edgesBetweenStep_moved ht l n st e
  · rintro st _ rfl
    exact .ok rfl

theorem histGet_moved (h : List (Vec2 K × K)) (r : Vec2 K) :
    histGet (h.map (fun e => (e.1 + t, e.2))) (r + t) = histGet h r := by
  unfold histGet
  induction h with
  | nil => rfl
  | cons e h ih =>
    rw [List.map_cons, List.find?_cons, List.find?_cons]
    simp only [ht.beq]
    cases e.1.beq r with
    | true => rfl
    | false => exact ih

theorem histSet_moved (h : List (Vec2 K × K)) (r : Vec2 K) (v : K) :
    histSet (h.map (fun e => (e.1 + t, e.2))) (r + t) v = (histSet h r v).map (fun e => (e.1 + t, e.2)) := by
  induction h with
  | nil => rfl
  | cons e h ih =>
    rw [List.map_cons, histSet, histSet]
    simp only [ht.beq]
    split
    · rfl
    · rw [List.map_cons, ih]

variable {cfg : Cfg} {m : Mesh K} (hc : cfg.detailed = true → m.UnitScale)
include hc

theorem newDistance_moved (r : Vec2 K) {n n' : SearchNode K} (h1 : n'.root = n.root + t)
    (h2 : n'.polygonTo = n.polygonTo) (h3 : n'.distanceStartToRoot = n.distanceStartToRoot) :
    RR Eq (newDistance cfg m r n) (newDistance cfg (m.moved t) (r + t) n') := by
  unfold newDistance
  rw [h1, h2, h3, ht.beq, distance_moved ht]
  split
  · exact .ok rfl
  split
  · rename_i hd
    refine (mesh_idx_moved ht m _).bind ?_
    rintro l _ ⟨rfl, hl⟩
    have hs : (l.moved t).scale = l.scale := rfl
    rw [hs, (hc hd).one l hl, (hc hd).cmul, (hc hd).cmul, distance_moved ht]
    exact .ok rfl
  · exact .ok rfl

theorem newHeuristic_moved (g r : Vec2 K) (s e : Vec2 K × UInt32) :
    RR Eq (newHeuristic cfg m g r s e)
      (newHeuristic cfg (m.moved t) (g + t) (r + t) (s.1 + t, s.2) (e.1 + t, e.2)) := by
  unfold newHeuristic
  have := heuristic_moved ht r g (s.1, e.1)
  simp only [mv2] at this
  split
  · rename_i hd
    refine (mesh_idx_moved ht m _).bind ?_
    rintro l _ ⟨rfl, hl⟩
    refine (mesh_idx_moved ht m _).bind ?_
    rintro k _ ⟨rfl, hk⟩
    have hs : ∀ l : Layer K, (l.moved t).scale = l.scale := fun _ => rfl
    rw [hs, hs, (hc hd).one l hl, (hc hd).one k hk]
    simp only [(hc hd).cmul, this]
    exact .ok rfl
  · simp only [this]
    exact .ok rfl

theorem addNode_moved (i : Inst K) (r : Vec2 K) (o : UInt32) (s e : Vec2 K × UInt32) {n n' : SearchNode K}
    (h1 : n'.root = n.root + t) (h2 : n'.polygonTo = n.polygonTo) (h3 : n'.distanceStartToRoot = n.distanceStartToRoot)
    (h4 : n'.path = n.path.map (· + t))
    (h5 : n'.pathWithLayers = n.pathWithLayers.map (fun q => (q.1 + t, q.2.1 + t, q.2.2))) :
    RR (fun a b => b = a.moved t) (i.addNode cfg m r o s e n)
      ((i.moved t).addNode cfg (m.moved t) (r + t) o (s.1 + t, s.2) (e.1 + t, e.2) n') := by
  have hpl : newPathWithLayers cfg (r + t) o (s.1 + t) (e.1 + t) n' =
      (newPathWithLayers cfg r o s.1 e.1 n).map (fun q => (q.1 + t, q.2.1 + t, q.2.2)) := by
    unfold newPathWithLayers
    rw [h1, h2, h5, ht.beq]
    split
    · simp only
      split <;> split <;> simp
    · rfl
  unfold Inst.addNode
  refine (newDistance_moved ht hc r h1 h2 h3).bind ?_
  rintro f _ rfl
  refine (newHeuristic_moved ht hc i.goal r s e).bind ?_
  rintro h _ rfl
  split
  · exact .ok rfl
  simp only
  rw [h1, h2, h4, hpl, ht.beq]
  have hg : histGet (i.moved t).rootHistory (r + t) = histGet i.rootHistory r := histGet_moved ht _ _
  have hs : ∀ v, histSet (i.moved t).rootHistory (r + t) v =
      (histSet i.rootHistory r v).map (fun e => (e.1 + t, e.2)) := fun v => histSet_moved ht _ _ _
  have hp : (if r.beq n.root = true then n.path.map (· + t) else n.path.map (· + t) ++ [r + t]) =
      (if r.beq n.root = true then n.path else n.path ++ [r]).map (· + t) := by
    split <;> simp
  rw [hg, hs, hp]
  have hbuf : ∀ k : SearchNode K, (i.moved t).nodeBuffer ++ [k.moved t] = (i.nodeBuffer ++ [k]).map (SearchNode.moved t) := by
    intro k; simp [Inst.moved]
  split
  · split
    · exact .ok rfl
    · refine .ok ?_
      simp only [Inst.moved, SearchNode.moved, List.map_append, List.map_cons, List.map_nil, mv2]
  · refine .ok ?_
    simp only [Inst.moved, SearchNode.moved, List.map_append, List.map_cons, List.map_nil, mv2]

theorem successorRoot_moved (B : List UInt8) (n : SearchNode K) (l : Layer K) (x y : Vertex K) (s : Successor K) :
    RR (fun a b => b = a.map (· + t)) (successorRoot m B n l x y s)
      (successorRoot (m.moved t) B (n.moved t) (l.moved t) x y (s.moved t)) := by
  unfold successorRoot
  rw [show (s.moved t).interval.1 = s.interval.1 + t from rfl, show (s.moved t).interval.2 = s.interval.2 + t from rfl,
    show (s.moved t).ty = s.ty from rfl, show (n.moved t).interval.1 = n.interval.1 + t from rfl,
    show (n.moved t).interval.2 = n.interval.2 + t from rfl, show (n.moved t).root = n.root + t from rfl,
    show (n.moved t).previousPolygonLayer = n.previousPolygonLayer from rfl, show (n.moved t).edge = n.edge from rfl,
    show (l.moved t).offset = l.offset + t from rfl, ht.assoc, ht.assoc, distanceSquared_moved ht,
    distanceSquared_moved ht]
  cases s.ty with
  | observable => exact .ok rfl
  | rightNonObservable =>
    simp only
    cases (tol10 <. s.interval.1.distanceSquared (x.coords + l.offset)) with
    | true => exact .ok rfl
    | false =>
      refine (mesh_idx_moved ht m _).bind ?_
      rintro pl _ ⟨rfl, -⟩
      refine RR.bindEq fun v => ?_
      rw [show v.coords + (pl.moved t).offset = (v.coords + pl.offset) + t from ht.assoc _ _, distanceSquared_moved ht]
      cases (canTurnAt B v && (v.coords + pl.offset).distanceSquared n.interval.1 <. tol10) with
      | true => exact .ok rfl
      | false => exact .ok rfl
  | leftNonObservable =>
    simp only
    cases (tol10 <. s.interval.2.distanceSquared (y.coords + l.offset)) with
    | true => exact .ok rfl
    | false =>
      refine (mesh_idx_moved ht m _).bind ?_
      rintro pl _ ⟨rfl, -⟩
      refine RR.bindEq fun v => ?_
      rw [show v.coords + (pl.moved t).offset = (v.coords + pl.offset) + t from ht.assoc _ _, distanceSquared_moved ht]
      cases (canTurnAt B v && (v.coords + pl.offset).distanceSquared n.interval.2 <. tol10) with
      | true => exact .ok rfl
      | false => exact .ok rfl

theorem expandOne_moved (n : SearchNode K) (i : Inst K) (s : Successor K) :
    RR (fun a b => b = a.moved t) (expandOne cfg m n i s)
      (expandOne cfg (m.moved t) (n.moved t) (i.moved t) (s.moved t)) := by
  unfold expandOne
  refine (mesh_idx_moved ht m _).bind ?_
  rintro l _ ⟨rfl, -⟩
  refine RR.bindEq fun x => RR.bindEq fun y => ?_
  have e1 : (n.moved t).polygonTo = n.polygonTo := rfl
  have e2 : (i.moved t).blocked = i.blocked := rfl
  have e3 : (i.moved t).polygonTo = i.polygonTo := rfl
  have e4 : (n.moved t).polygonFrom = n.polygonFrom := rfl
  simp only [e1, e2, e3, e4]
  generalize otherSideOf x y n.polygonTo = o
  split
  · exact .ok rfl
  split
  · exact .ok rfl
  have hdead : RR Eq (if i.polygonTo ≠ o then do
        let l ← idx m.layers (layerOf o).toNat
        let p ← idx l.polygons (polygonOf o).toNat
        .ok p.isOneWay
      else .ok false : Res Bool) (if i.polygonTo ≠ o then do
        let l ← idx (m.moved t).layers (layerOf o).toNat
        let p ← idx l.polygons (polygonOf o).toNat
        .ok p.isOneWay
      else .ok false : Res Bool) := by
    split
    · refine (mesh_idx_moved ht m _).bind ?_
      rintro l _ ⟨rfl, -⟩
      exact RR.refl _
    · exact .ok rfl
  refine hdead.bind ?_
  rintro d _ rfl
  split
  · exact .ok rfl
  split
  · exact .ok rfl
  refine (successorRoot_moved ht hc i.blocked n l x y s).bind ?_
  rintro r _ rfl
  cases r with
  | none => exact .ok rfl
  | some root =>
    simp only [Option.map_some]
    rw [show (s.moved t).interval.1.distanceSquared (s.moved t).interval.2 = s.interval.1.distanceSquared s.interval.2
      from distanceSquared_moved ht _ _]
    split
    · exact .ok rfl
    · exact addNode_moved ht hc i root o (s.interval.1, s.edge.1) (s.interval.2, s.edge.2) (n := n) (n' := n.moved t)
        rfl rfl rfl rfl rfl

theorem isReverse_moved (n k : SearchNode K) : isReverse (n.moved t) (k.moved t) = isReverse n k := by
  unfold isReverse
  simp only [SearchNode.moved, mv2, ht.beq]

theorem successorsLoop_moved : ∀ (fuel : Nat) (visited : List UInt32) (n : SearchNode K) (i : Inst K),
    RR (fun a b => b = a.moved t) (successorsLoop cfg m fuel visited n i)
      (successorsLoop cfg (m.moved t) fuel visited (n.moved t) (i.moved t)) := by
  intro fuel
  induction fuel with
  | zero => intros; exact .error _
  | succ fuel ih =>
    intro visited n i
    simp only [successorsLoop]
    refine (edgesBetween_moved ht m n).bind ?_
    rintro succs _ rfl
    have hs : List.Forall₂ (fun s s' => s' = Successor.moved t s) succs (succs.map (Successor.moved t)) := by
      rw [List.forall₂_map_right_iff]
      exact List.forall₂_same.2 fun _ _ => rfl
    refine (RR.foldlM (S := fun (a b : Inst K) => b = a.moved t) hs ?_ rfl).bind ?_
    · rintro s _ rfl i _ rfl
      exact expandOne_moved ht hc n i s
    · rintro i _ rfl
      rw [show (i.moved t).nodeBuffer = i.nodeBuffer.map (SearchNode.moved t) from rfl]
      cases hb : i.nodeBuffer with
      | nil => exact .ok rfl
      | cons k ks =>
        cases ks with
        | cons _ _ => exact .ok rfl
        | nil =>
          simp only [List.map_cons, List.map_nil, isReverse_moved ht hc,
            show (k.moved t).polygonTo = k.polygonTo from rfl, show (i.moved t).polygonTo = i.polygonTo from rfl]
          split
          · split
            · exact .ok rfl
            · split
              · exact .ok rfl
              · exact ih _ k { i with nodeBuffer := [] }
          · exact .ok rfl

theorem flushNodes_moved (i : Inst K) : (i.moved t).flushNodes = i.flushNodes.moved t := by
  unfold Inst.flushNodes
  simp only [Inst.moved, List.map_append, List.map_nil]

theorem successors_moved (n : SearchNode K) (i : Inst K) :
    RR (fun a b => b = a.moved t) (i.successors cfg m n) ((i.moved t).successors cfg (m.moved t) (n.moved t)) := by
  unfold Inst.successors
  refine (successorsLoop_moved ht hc _ _ n i).bind ?_
  rintro i _ rfl
  exact .ok (flushNodes_moved ht hc i)

theorem setupEdge_moved (l : Layer K) (src dst : Vec2 K × UInt32) (i : Inst K) (e : UInt32 × UInt32) :
    RR (fun a b => b = a.moved t) (setupEdge cfg m l src dst (emptyNode src) i e)
      (setupEdge cfg (m.moved t) (l.moved t) (src.1 + t, src.2) (dst.1 + t, dst.2) (emptyNode (src.1 + t, src.2))
        (i.moved t) e) := by
  unfold setupEdge
  rw [show (l.moved t).vertices = l.vertices from rfl]
  cases l.vertices[e.1.toNat]? with
  | none => exact .ok rfl
  | some x =>
    cases l.vertices[e.2.toNat]? with
    | none => exact .ok rfl
    | some y =>
      simp only [show (i.moved t).blocked = i.blocked from rfl]
      generalize otherSideOf x y src.2 = o
      split
      · exact .ok rfl
      have hgo : RR Eq (if o = dst.2 then .ok true
            else if o = u32Max then .ok false
            else do
              let l ← idx m.layers (layerOf o).toNat
              let p ← idx l.polygons (polygonOf o).toNat
              .ok (!p.isOneWay) : Res Bool) (if o = dst.2 then .ok true
            else if o = u32Max then .ok false
            else do
              let l ← idx (m.moved t).layers (layerOf o).toNat
              let p ← idx l.polygons (polygonOf o).toNat
              .ok (!p.isOneWay) : Res Bool) := by
        split
        · exact .ok rfl
        split
        · exact .ok rfl
        refine (mesh_idx_moved ht m _).bind ?_
        rintro k _ ⟨rfl, -⟩
        exact RR.refl _
      refine hgo.bind ?_
      rintro d _ rfl
      split
      · rw [show x.coords + (l.moved t).offset = (x.coords + l.offset) + t from ht.assoc _ _,
          show y.coords + (l.moved t).offset = (y.coords + l.offset) + t from ht.assoc _ _]
        exact addNode_moved ht hc i src.1 o (x.coords + l.offset, e.1) (y.coords + l.offset, e.2) (n := emptyNode src)
          (n' := emptyNode (src.1 + t, src.2)) rfl rfl rfl rfl rfl
      · exact .ok rfl

theorem setup_moved (src dst : Vec2 K × UInt32) (B : List UInt8) :
    RR (fun a b => b = a.moved t) (Inst.setup cfg m src dst B)
      (Inst.setup cfg (m.moved t) (src.1 + t, src.2) (dst.1 + t, dst.2) B) := by
  unfold Inst.setup
  refine (mesh_idx_moved ht m _).bind ?_
  rintro l _ ⟨rfl, -⟩
  refine RR.bindEq fun p => RR.bindEq fun es => ?_
  refine (RR.foldlM (R := Eq) (S := fun (a b : Inst K) => b = a.moved t) (List.forall₂_refl es) ?_ rfl).bind ?_
  · rintro e _ rfl i _ rfl
    exact setupEdge_moved ht hc l src dst i e
  · rintro i _ rfl
    exact .ok (flushNodes_moved ht hc i)

/-! ### The path -/

theorem resolveLayers_moved (last : Vec2 K) : ∀ (ps : List (Vec2 K × Vec2 K × UInt8)) (frm : Vec2 K),
    resolveLayers (last + t) (frm + t) (ps.map (fun q => (q.1 + t, q.2.1 + t, q.2.2))) =
      (resolveLayers last frm ps).map (fun q => (q.1 + t, q.2)) := by
  intro ps
  induction ps with
  | nil => intro frm; rfl
  | cons p ps ih =>
    intro frm
    rw [List.map_cons, resolveLayers, resolveLayers]
    simp only [ht.beq]
    have hf : (((ps.map (fun q : Vec2 K × Vec2 K × UInt8 => (q.1 + t, q.2.1 + t, q.2.2))).find? (fun q => q.1.beq q.2.1)).map (·.1)).getD (last + t) =
        ((ps.find? (fun q => q.1.beq q.2.1)).map (·.1)).getD last + t := by
      rw [List.find?_map]
      have : ((fun q : Vec2 K × Vec2 K × UInt8 => q.1.beq q.2.1) ∘
          fun q : Vec2 K × Vec2 K × UInt8 => (q.1 + t, q.2.1 + t, q.2.2)) =
          fun q : Vec2 K × Vec2 K × UInt8 => q.1.beq q.2.1 := by
        funext q
        simp only [Function.comp, ht.beq]
      rw [this]
      cases ps.find? (fun q => q.1.beq q.2.1) <;> rfl
    split
    · rw [List.map_cons, ih]
    · rw [hf]
      have := lineIntersectSegment_moved ht (frm, ((ps.find? (fun q => q.1.beq q.2.1)).map (·.1)).getD last) (p.1, p.2.1)
      simp only [mv2] at this
      rw [this]
      cases lineIntersectSegment (frm, ((ps.find? (fun q => q.1.beq q.2.1)).map (·.1)).getD last) (p.1, p.2.1) with
      | none => exact ih frm
      | some it => simp only [Option.map_some, List.map_cons, ih]

theorem dropClose_moved : ∀ ps : List (Vec2 K × UInt8),
    dropClose (ps.map (fun q => (q.1 + t, q.2))) = (dropClose ps).map (fun q => (q.1 + t, q.2))
  | [] => rfl
  | [p] => rfl
  | p :: n :: rest => by
    have ih := dropClose_moved (n :: rest)
    simp only [List.map_cons] at ih ⊢
    rw [dropClose, dropClose]
    simp only [distanceSquared_moved ht]
    split
    · exact ih
    · rw [ih, List.map_cons]

theorem detailedLength_moved (hd : cfg.detailed = true) : ∀ (ps : List (Vec2 K × UInt8)) (acc : K) (cur : Vec2 K × UInt8),
    RR Eq (detailedLength m acc cur ps)
      (detailedLength (m.moved t) acc (cur.1 + t, cur.2) (ps.map (fun q => (q.1 + t, q.2)))) := by
  intro ps
  induction ps with
  | nil => intro acc cur; exact .ok rfl
  | cons p ps ih =>
    intro acc cur
    simp only [List.map_cons, detailedLength]
    refine (mesh_idx_moved ht m _).bind ?_
    rintro l _ ⟨rfl, hl⟩
    rw [show (l.moved t).scale = l.scale from rfl, (hc hd).one l hl]
    simp only [(hc hd).cmul, distance_moved ht]
    exact ih _ p

theorem foundPath_moved (i : Inst K) (n : SearchNode K) :
    RR (fun a b => b = Path.moved t a) (foundPath cfg m i n) (foundPath cfg (m.moved t) (i.moved t) (n.moved t)) := by
  have he : pathEnd (i.moved t) (n.moved t) = (pathEnd i n).map (fun q => (q.1 + t, q.2)) := by
    unfold pathEnd
    rw [show turningPoint (n.moved t).root (i.moved t).goal (n.moved t).interval =
      (turningPoint n.root i.goal n.interval).map (· + t) from turningPoint_moved ht _ _ _]
    cases turningPoint n.root i.goal n.interval <;> rfl
  have hp : (n.moved t).path ++ (pathEnd (i.moved t) (n.moved t)).map (·.1) =
      (n.path ++ (pathEnd i n).map (·.1)).map (· + t) := by
    rw [he, List.map_append, List.map_map, List.map_map]
    rfl
  unfold foundPath
  simp only [hp]
  split
  · rename_i hd
    have hl : ((pathEnd (i.moved t) (n.moved t)).head?.map (·.1)).getD (i.moved t).goal =
        ((pathEnd i n).head?.map (·.1)).getD i.goal + t := by
      rw [he]
      cases pathEnd i n <;> rfl
    have hr : dropClose (resolveLayers (((pathEnd i n).head?.map (·.1)).getD i.goal + t) (i.moved t).start.1
        (n.moved t).pathWithLayers ++ pathEnd (i.moved t) (n.moved t)) =
        (dropClose (resolveLayers (((pathEnd i n).head?.map (·.1)).getD i.goal) i.start.1 n.pathWithLayers ++
          pathEnd i n)).map (fun q => (q.1 + t, q.2)) := by
      rw [he, ← dropClose_moved ht hc, List.map_append]
      congr 2
      exact resolveLayers_moved ht hc _ _ _
    rw [hl, hr]
    refine (detailedLength_moved ht hc hd _ _ i.start).bind ?_
    rintro len _ rfl
    exact .ok rfl
  · exact .ok rfl

def Step.moved (t : Vec2 K) : Step K → Step K
  | .found p => .found (p.moved t)
  | .notFound => .notFound
  | .continue => .continue

theorem nextBody_moved (j : Inst K) (n : SearchNode K) :
    RR (fun a b => b = (Step.moved t a.1, Inst.moved t a.2))
      (if isDominated j n then .ok (.continue, j)
        else if n.polygonTo = j.polygonTo then do
          let p ← foundPath cfg m j n
          .ok (.found p, j)
        else do
          let j ← j.successors cfg m n
          .ok (.continue, j))
      (if isDominated (j.moved t) (n.moved t) then .ok (.continue, j.moved t)
        else if (n.moved t).polygonTo = (j.moved t).polygonTo then do
          let p ← foundPath cfg (m.moved t) (j.moved t) (n.moved t)
          .ok (.found p, j.moved t)
        else do
          let j ← (j.moved t).successors cfg (m.moved t) (n.moved t)
          .ok (.continue, j)) := by
  have hdom : isDominated (j.moved t) (n.moved t) = isDominated j n := by
    unfold isDominated
    rw [show histGet (j.moved t).rootHistory (n.moved t).root = histGet j.rootHistory n.root from histGet_moved ht _ _]
    rfl
  rw [hdom, show (n.moved t).polygonTo = n.polygonTo from rfl, show (j.moved t).polygonTo = j.polygonTo from rfl]
  split
  · exact .ok rfl
  split
  · refine (foundPath_moved ht hc _ n).bind ?_
    rintro p _ rfl
    exact .ok rfl
  · refine (successors_moved ht hc n _).bind ?_
    rintro j _ rfl
    exact .ok rfl

theorem next_moved {heap : Heap K} (hh : heap.ByCost) (i : Inst K) :
    RR (fun a b => b = (Step.moved t a.1, Inst.moved t a.2)) (i.next heap cfg m)
      ((i.moved t).next heap cfg (m.moved t)) := by
  unfold Inst.next
  have hq : List.Forall₂ (fun n n' => n' = SearchNode.moved t n) i.queue (i.moved t).queue := by
    change List.Forall₂ _ i.queue (i.queue.map (SearchNode.moved t))
    rw [List.forall₂_map_right_iff]
    exact List.forall₂_same.2 fun _ _ => rfl
  rcases hh (fun n n' => n' = SearchNode.moved t n) (fun n n' h => by rw [h]; exact ⟨rfl, rfl⟩) _ _ hq with
    ⟨h1, h2⟩ | ⟨n, r, n', r', h1, h2, hn, hr⟩
  · rw [h1, h2]
    exact .ok rfl
  · have hr' : r' = r.map (SearchNode.moved t) := by
      rw [← List.forall₂_eq_eq_eq, List.forall₂_map_right_iff]
      exact hr.flip
    subst hn hr'
    rw [h1, h2]
    exact nextBody_moved ht hc { i with queue := r } n

/-- The result of a search loop, moved. -/
def loopMoved (t : Vec2 K) : Path K ⊕ List (Path K) → Path K ⊕ List (Path K)
  | .inl p => .inl (p.moved t)
  | .inr ps => .inr (ps.map (Path.moved t))

theorem searchLoop_moved {heap : Heap K} (hh : heap.ByCost) : ∀ (k : Nat) (i : Inst K) (ps : List (Path K)),
    RR (fun a b => b = loopMoved t a) (searchLoop heap cfg m k i ps)
      (searchLoop heap cfg (m.moved t) k (i.moved t) (ps.map (Path.moved t))) := by
  intro k
  induction k with
  | zero => intro i ps; rw [searchLoop, searchLoop]; exact .ok rfl
  | succ k ih =>
    intro i ps
    rw [searchLoop_succ, searchLoop_succ]
    refine (next_moved ht hc hh i).bind ?_
    rintro ⟨step, j⟩ _ rfl
    unfold afterStep
    cases step with
    | found p =>
      simp only [Step.moved]
      split
      · have := ih j (ps ++ [p])
        rw [List.map_append] at this
        exact this
      · exact .ok rfl
    | notFound =>
      simp only [Step.moved]
      cases ps with
      | nil => exact ih j []
      | cons p ps =>
        simp only [List.map_cons]
        split
        · have := ih j (ps ++ [p])
          rw [List.map_append] at this
          exact this
        · exact ih j ps
    | «continue» => exact ih j ps

theorem pollSteps_moved {heap : Heap K} (hh : heap.ByCost) : ∀ (k : Nat) (i : Inst K),
    RR (fun a b => b = (a.1.map (Option.map (Path.moved t)), a.2.moved t)) (pollSteps heap cfg m k i)
      (pollSteps heap cfg (m.moved t) k (i.moved t)) := by
  intro k
  induction k with
  | zero => intro i; exact .ok rfl
  | succ k ih =>
    intro i
    simp only [pollSteps]
    refine (next_moved ht hc hh i).bind ?_
    rintro ⟨step, j⟩ _ rfl
    cases step with
    | found p => exact .ok rfl
    | notFound => exact .ok rfl
    | «continue» => exact ih j

theorem islandsDiffer_moved (s e : UInt32) : (m.moved t).islandsDiffer s e = m.islandsDiffer s e := by
  unfold Mesh.islandsDiffer
  rw [show (m.moved t).layers.length = m.layers.length from List.length_map _]
  split
  · refine RR.eq ((mesh_idx_moved ht m _).bind ?_)
    rintro l _ ⟨rfl, -⟩
    exact RR.refl _
  · rfl

theorem islandsDifferAsync_moved (s e : UInt32) : (m.moved t).islandsDifferAsync s e = m.islandsDifferAsync s e := by
  unfold Mesh.islandsDifferAsync
  split
  · refine RR.eq ((mesh_idx_moved ht m _).bind ?_)
    rintro l _ ⟨rfl, -⟩
    exact RR.refl _
  · rfl

theorem pickPath_moved (ps : List (Path K)) :
    RR (fun a b => b = a.map (Path.moved t)) (pickPath cfg ps) (pickPath cfg (ps.map (Path.moved t))) := by
  unfold pickPath
  split
  · rw [List.length_map, List.any_map]
    rw [show ((fun p : Path K => Scalar.isNan p.length) ∘ Path.moved t) = fun p : Path K => Scalar.isNan p.length from rfl]
    split
    · exact .error _
    · refine .ok ?_
      rw [← List.head?_map, List.map_mergeSort]
      intro a _ b _
      rfl
  · refine .ok ?_
    rw [List.head?_map]

theorem pathBetween_moved {heap : Heap K} (hh : heap.ByCost) (a b : Vec2 K) (s e : UInt32) (B : List UInt8) :
    RR (fun p q => q = p.map (Path.moved t)) (m.pathBetween heap cfg a b s e B)
      ((m.moved t).pathBetween heap cfg (a + t) (b + t) s e B) := by
  rw [pathBetween_eq, pathBetween_eq, islandsDiffer_moved ht hc]
  refine RR.bindEq fun d => ?_
  have hb : (m.moved t).stepBudget = m.stepBudget := by
    unfold Mesh.stepBudget Mesh.moved
    rw [List.map_map]
    rfl
  unfold afterIslands
  rw [hb]
  split
  · exact .ok rfl
  split
  · refine .ok ?_
    simp only [Option.map_some, Path.moved, distance_moved ht, List.map_cons, List.map_nil]
    split <;> rfl
  refine (setup_moved ht hc (a, s) (b, e) B).bind ?_
  rintro i _ rfl
  refine (searchLoop_moved ht hc hh _ i []).bind ?_
  rintro r _ rfl
  cases r with
  | inl p => exact .ok rfl
  | inr ps => exact pickPath_moved ht hc ps

end

end Polyanya
