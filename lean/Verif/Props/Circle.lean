import Verif.Props.WalkableExample
import Verif.Props.AsyncAgree
import Verif.Proofs.Checks
/-
C55 is false without a hypothesis on the start: a search from an interior vertex of the mesh may never end.
-/

namespace Polyanya

section
variable {K : Type} [Scalar K]

/-- The same state with more nodes in front of the queue. -/
def Inst.after (q : List (SearchNode K)) (inst : Inst K) : Inst K := { inst with queue := q ++ inst.queue }

theorem addNode_after (cfg : Cfg) (m : Mesh K) (q : List (SearchNode K)) (inst : Inst K) (root : Vec2 K) (o : UInt32)
    (a b : Vec2 K × UInt32) (n : SearchNode K) :
    (inst.after q).addNode cfg m root o a b n = (inst.addNode cfg m root o a b n).map (Inst.after q) := by
  unfold Inst.addNode
  simp only [Inst.after]
  cases newDistance cfg m root n with
  | error e => rfl
  | ok d =>
    simp only [res_bind_ok]
    cases newHeuristic cfg m inst.goal root a b with
    | error e => rfl
    | ok h =>
      simp only [res_bind_ok]
      split
      · rfl
      · cases histGet inst.rootHistory root with
        | none => rfl
        | some o =>
          simp only
          split <;> rfl

theorem expandOne_after (cfg : Cfg) (m : Mesh K) (q : List (SearchNode K)) (n : SearchNode K) (inst : Inst K)
    (s : Successor K) :
    expandOne cfg m n (inst.after q) s = (expandOne cfg m n inst s).map (Inst.after q) := by
  unfold expandOne
  cases idx m.layers (layerOf n.polygonTo).toNat with
  | error e => rfl
  | ok l =>
    simp only [res_bind_ok]
    cases idxUnchecked l.vertices s.edge.1.toNat with
    | error e => rfl
    | ok a =>
      simp only [res_bind_ok]
      cases idxUnchecked l.vertices s.edge.2.toNat with
      | error e => rfl
      | ok b =>
        simp only [res_bind_ok]
        have e1 : (inst.after q).blocked = inst.blocked := rfl
        have e2 : (inst.after q).polygonTo = inst.polygonTo := rfl
        rw [e1, e2]
        split
        · rfl
        · split
          · rfl
          · generalize hd : (if inst.polygonTo ≠ otherSideOf a b n.polygonTo then _ else _ : Res Bool) = d
            cases d with
            | error e => rfl
            | ok d =>
              simp only [res_bind_ok]
              split
              · rfl
              · split
                · rfl
                · cases successorRoot m inst.blocked n l a b s with
                  | error e => rfl
                  | ok r =>
                    simp only [res_bind_ok]
                    cases r with
                    | none => rfl
                    | some r =>
                      simp only
                      split
                      · rfl
                      · exact addNode_after ..

theorem foldlM_after (cfg : Cfg) (m : Mesh K) (q : List (SearchNode K)) (n : SearchNode K) :
    ∀ (ss : List (Successor K)) (inst : Inst K),
      ss.foldlM (expandOne cfg m n) (inst.after q) = (ss.foldlM (expandOne cfg m n) inst).map (Inst.after q)
  | [], inst => rfl
  | s :: ss, inst => by
    simp only [List.foldlM_cons]
    rw [expandOne_after]
    cases expandOne cfg m n inst s with
    | error e => rfl
    | ok i => exact foldlM_after cfg m q n ss i

/-- What the loop of `successors` does to the rest of the state does not depend on the queue. -/
theorem successorsLoop_after (cfg : Cfg) (m : Mesh K) (q : List (SearchNode K)) :
    ∀ (fuel : Nat) (vis : List UInt32) (n : SearchNode K) (inst : Inst K),
      successorsLoop cfg m fuel vis n (inst.after q) = (successorsLoop cfg m fuel vis n inst).map (Inst.after q)
  | 0, _, _, _ => rfl
  | fuel + 1, vis, n, inst => by
    simp only [successorsLoop]
    cases edgesBetween m n with
    | error e => rfl
    | ok ss =>
      simp only [res_bind_ok]
      rw [foldlM_after]
      cases ss.foldlM (expandOne cfg m n) inst with
      | error e => rfl
      | ok i =>
        have e1 : (i.after q).nodeBuffer = i.nodeBuffer := rfl
        have e2 : (i.after q).polygonTo = i.polygonTo := rfl
        simp only [Except.map, res_bind_ok]
        rw [e1]
        split
        · rename_i next _
          rw [e2]
          split
          · split
            · rfl
            · split
              · rfl
              · exact successorsLoop_after cfg m q fuel _ _ { i with nodeBuffer := [] }
          · rfl
        · rfl

theorem successors_after (cfg : Cfg) (m : Mesh K) (q : List (SearchNode K)) (n : SearchNode K) (inst : Inst K) :
    (inst.after q).successors cfg m n = (inst.successors cfg m n).map (Inst.after q) := by
  unfold Inst.successors
  rw [successorsLoop_after]
  cases successorsLoop cfg m succFuel [] n inst with
  | error e => rfl
  | ok i => simp [Except.map, Inst.after, Inst.flushNodes]

end

deriving instance DecidableEq for Inst

/-- Four squares around the vertex (8, 8), and three more squares to the right, in a column. -/
def circLayer : Layer (Ext ℚ) := Layer.mk'
  [ Vertex.new (e2 0 0) [0, u32Max], Vertex.new (e2 8 0) [0, 1, u32Max], Vertex.new (e2 16 0) [1, 4, 5, u32Max],
    Vertex.new (e2 24 0) [4, 5, u32Max], Vertex.new (e2 0 8) [0, 3, u32Max], Vertex.new (e2 8 8) [0, 1, 2, 3],
    Vertex.new (e2 16 8) [1, 2, 4, u32Max], Vertex.new (e2 24 8) [4, u32Max], Vertex.new (e2 0 16) [3, u32Max],
    Vertex.new (e2 8 16) [2, 3, u32Max], Vertex.new (e2 16 16) [2, u32Max], Vertex.new (e2 16 (-8)) [5, 6, u32Max],
    Vertex.new (e2 24 (-8)) [5, 6, u32Max], Vertex.new (e2 16 (-16)) [6, u32Max],
    Vertex.new (e2 24 (-16)) [6, u32Max] ]
  [ Polygon.new [0, 1, 5, 4] false, Polygon.new [1, 2, 6, 5] false, Polygon.new [5, 6, 10, 9] false,
    Polygon.new [4, 5, 9, 8] false, Polygon.new [2, 3, 7, 6] false, Polygon.new [11, 12, 3, 2] false,
    Polygon.new [13, 14, 12, 11] false ]

def circMesh : Mesh (Ext ℚ) := Mesh.ofLayers [circLayer.bakePolygonFinder]

/-- The state of the search with this queue. -/
def circInst (q : List (SearchNode (Ext ℚ))) : Inst (Ext ℚ) :=
  { queue := q, nodeBuffer := [], rootHistory := [(e2 8 8, Scalar.lit 0 0)], start := (e2 8 8, 0),
    goal := e2 20 (-12), polygonTo := 6, blocked := [] }

/-- A node of this search with root (8, 8). -/
def circNode (a b : Vec2 (Ext ℚ)) (e : UInt32 × UInt32) (s t : UInt32) : SearchNode (Ext ℚ) :=
  { path := [], pathWithLayers := [], root := e2 8 8, interval := (a, b), edge := e, polygonFrom := s,
    polygonTo := t, previousPolygonLayer := 0, distanceStartToRoot := Scalar.lit 0 0,
    heuristic := heuristic (e2 8 8) (e2 20 (-12)) (a, b) }

/-- The two nodes of the start, into polygons 1 and 3. -/
def circE : SearchNode (Ext ℚ) := circNode (e2 8 0) (e2 8 8) (1, 5) 0 1
def circN : SearchNode (Ext ℚ) := circNode (e2 8 8) (e2 0 8) (5, 4) 0 3
/-- The node that comes back to polygon 0, around the vertex. -/
def circC : SearchNode (Ext ℚ) := circNode (e2 8 8) (e2 8 0) (5, 1) 1 0
/-- The node that goes on towards the goal. -/
def circX : SearchNode (Ext ℚ) := circNode (e2 16 0) (e2 16 8) (2, 6) 1 4

theorem circ_setup : Inst.setup ⟨false⟩ circMesh (e2 8 8, 0) (e2 20 (-12), 6) [] = .ok (circInst [circE, circN]) := by
  obtain ⟨i, hi, h⟩ := of_resIs (x := Inst.setup ⟨false⟩ circMesh (e2 8 8, 0) (e2 20 (-12), 6) [])
    (f := fun i => decide (i = circInst [circE, circN])) (by decide +kernel)
  rw [hi, of_decide_eq_true h]

theorem circ_E : (circInst []).successors ⟨false⟩ circMesh circE = .ok (circInst []) := by
  obtain ⟨i, hi, h⟩ := of_resIs (x := (circInst []).successors ⟨false⟩ circMesh circE)
    (f := fun i => decide (i = circInst [])) (by decide +kernel)
  rw [hi, of_decide_eq_true h]

theorem circ_N : (circInst []).successors ⟨false⟩ circMesh circN = .ok (circInst [circC, circX]) := by
  obtain ⟨i, hi, h⟩ := of_resIs (x := (circInst []).successors ⟨false⟩ circMesh circN)
    (f := fun i => decide (i = circInst [circC, circX])) (by decide +kernel)
  rw [hi, of_decide_eq_true h]

theorem circ_C : (circInst []).successors ⟨false⟩ circMesh circC = .ok (circInst [circC, circX]) := by
  obtain ⟨i, hi, h⟩ := of_resIs (x := (circInst []).successors ⟨false⟩ circMesh circC)
    (f := fun i => decide (i = circInst [circC, circX])) (by decide +kernel)
  rw [hi, of_decide_eq_true h]

/-- The node that circles is preferred to the node that goes on. -/
theorem circ_order : circC.cmp circX = .gt := by decide +kernel

/-- The nodes that are in the queue: perhaps the first node, and the node that starts or goes on to circle, and nodes
that go on. -/
def Circling (q : List (SearchNode (Ext ℚ))) : Prop :=
  ∃ A n k, (A = [] ∨ A = [circE]) ∧ (n = circN ∧ k = 0 ∨ n = circC) ∧ q.Perm (A ++ n :: List.replicate k circX)

theorem circ_next {heap : Heap (Ext ℚ)} (hmax : heap.Max) {q : List (SearchNode (Ext ℚ))} (hq : Circling q) :
    ∃ q', Circling q' ∧ (circInst q).next heap ⟨false⟩ circMesh = .ok (.continue, circInst q') := by
  obtain ⟨A, n, k, hA, hn, hp⟩ := hq
  have hne : q ≠ [] := by
    rintro rfl
    have := hp.length_eq
    simp at this
  obtain ⟨p, r, hpop⟩ := heap.pop_some q hne
  have hpr := (heap.pop_perm _ _ _ hpop).trans hp
  have hin : p ∈ A ++ n :: List.replicate k circX := hpr.subset List.mem_cons_self
  have hx : p ≠ circX := by
    rintro rfl
    have hC : circC ∈ q := by
      rw [hp.mem_iff]
      rcases hn with ⟨rfl, rfl⟩ | rfl
      · exfalso
        rcases hA with rfl | rfl
        · simp at hin
          exact absurd hin (by decide +kernel)
        · simp at hin
          rcases hin with h | h
          · exact absurd h (by decide +kernel)
          · exact absurd h (by decide +kernel)
      · simp
    exact hmax _ _ _ hpop _ hC circ_order
  have hdom : ∀ p' ∈ [circE, circN, circC], isDominated (circInst r) p' = false := by
    have : ∀ p' ∈ [circE, circN, circC], isDominated (circInst []) p' = false := by decide +kernel
    exact this
  have hto : ∀ p' ∈ [circE, circN, circC], p'.polygonTo ≠ (circInst []).polygonTo := by decide +kernel
  have hstep : ∀ p' out, p = p' → p' ∈ [circE, circN, circC] →
      (circInst []).successors ⟨false⟩ circMesh p' = .ok (circInst out) →
      (circInst q).next heap ⟨false⟩ circMesh = .ok (.continue, circInst (r ++ out)) := by
    rintro p' out rfl hmem hs
    unfold Inst.next
    have e : (circInst q).queue = q := rfl
    have e' : { circInst q with queue := r } = (circInst []).after r := by
      simp [circInst, Inst.after]
    rw [e, hpop]
    simp only
    have e3 : isDominated ({ circInst q with queue := r }) p = false := hdom p hmem
    rw [e3]
    simp only [Bool.false_eq_true, if_false]
    rw [if_neg (show ¬ p.polygonTo = (circInst q).polygonTo from hto p hmem), e', successors_after, hs]
    simp [circInst, Inst.after, Except.map, res_bind_ok]
  have hCX : ∀ k, (List.replicate k circX ++ [circC, circX]).Perm (circC :: List.replicate (k + 1) circX) := by
    intro k
    rw [List.replicate_succ']
    exact List.perm_middle
  have hXC : ∀ k, (List.replicate k circX ++ [circX]).Perm (List.replicate (k + 1) circX) := by
    intro k
    rw [List.replicate_succ']
  by_cases hpE : p = circE ∧ A = [circE]
  · obtain ⟨rfl, rfl⟩ := hpE
    refine ⟨r ++ [], ⟨[], n, k, .inl rfl, hn, ?_⟩, hstep _ _ rfl (by simp) circ_E⟩
    rw [List.append_nil]
    simpa using hpr
  · have hpn : p = n := by
      rw [List.mem_append, List.mem_cons] at hin
      rcases hin with h | h | h
      · rcases hA with rfl | rfl
        · simp at h
        · simp at h
          exact absurd ⟨h, rfl⟩ hpE
      · exact h
      · exact absurd (List.eq_of_mem_replicate h) hx
    subst hpn
    have hr : r.Perm (A ++ List.replicate k circX) := (List.perm_cons p).1 (hpr.trans List.perm_middle)
    have hs : (circInst []).successors ⟨false⟩ circMesh p = .ok (circInst [circC, circX]) := by
      rcases hn with ⟨rfl, -⟩ | rfl
      · exact circ_N
      · exact circ_C
    have hm : p ∈ [circE, circN, circC] := by
      rcases hn with ⟨rfl, -⟩ | rfl <;> simp
    refine ⟨r ++ [circC, circX], ⟨A, circC, k + 1, hA, .inr rfl, ?_⟩, hstep _ _ rfl hm hs⟩
    refine (hr.append_right _).trans ?_
    rw [List.append_assoc]
    exact (hCX k).append_left A

theorem circ_pollSteps {heap : Heap (Ext ℚ)} (hmax : heap.Max) : ∀ (n : Nat) {q : List (SearchNode (Ext ℚ))},
    Circling q → ∃ q', Circling q' ∧ pollSteps heap ⟨false⟩ circMesh n (circInst q) = .ok (none, circInst q')
  | 0, q, hq => ⟨q, hq, rfl⟩
  | n + 1, q, hq => by
    obtain ⟨q', hq', hn⟩ := circ_next hmax hq
    obtain ⟨q'', hq'', hn'⟩ := circ_pollSteps hmax n hq'
    refine ⟨q'', hq'', ?_⟩
    simp only [pollSteps]
    rw [hn, res_bind_ok]
    exact hn'

theorem circ_first : Circling [circE, circN] := ⟨[circE], circN, 0, .inr rfl, .inl ⟨rfl, rfl⟩, .refl _⟩

theorem circ_locate : circMesh.getPointLocation everyIndex (Coords.onMesh (e2 8 8)) = .ok 0
    ∧ circMesh.getPointLocation everyIndex (Coords.onMesh (e2 20 (-12))) = .ok 6 := by
  decide +kernel

/-- The future stays pending. -/
theorem circ_poll {heap : Heap (Ext ℚ)} (hmax : heap.Max) {f : FuturePath (Ext ℚ)}
    (h1 : f.src = e2 8 8) (h2 : f.dst = e2 20 (-12))
    (h : f.instance? = none ∨ ∃ q, Circling q ∧ f.instance? = some (circInst q)) :
    ∃ f', f.poll everyIndex heap ⟨false⟩ circMesh = .ok (.pending true, f') ∧ f'.src = e2 8 8
      ∧ f'.dst = e2 20 (-12) ∧ ∃ q, Circling q ∧ f'.instance? = some (circInst q) := by
  unfold FuturePath.poll
  rcases h with h | ⟨q, hq, h⟩
  · rw [h]
    simp only
    rw [h1, h2, circ_locate.1, circ_locate.2, res_bind_ok, res_bind_ok, circ_setup, res_bind_ok]
    have e : circMesh.islandsDifferAsync 0 6 = .ok false := by decide +kernel
    rw [if_neg (by decide), if_neg (by decide), e, res_bind_ok]
    exact ⟨_, rfl, rfl, rfl, _, circ_first, rfl⟩
  · rw [h]
    simp only
    obtain ⟨q', hq', hn⟩ := circ_pollSteps hmax 3 hq
    rw [hn, res_bind_ok]
    exact ⟨_, rfl, h1, h2, _, hq', rfl⟩

theorem circ_searchLoop {heap : Heap (Ext ℚ)} (hmax : heap.Max) : ∀ (n : Nat) {q : List (SearchNode (Ext ℚ))},
    Circling q → searchLoop heap ⟨false⟩ circMesh n (circInst q) [] = .ok (.inr [])
  | 0, q, hq => rfl
  | n + 1, q, hq => by
    obtain ⟨q', hq', hn⟩ := circ_next hmax hq
    simp only [searchLoop]
    rw [hn, res_bind_ok]
    exact circ_searchLoop hmax n hq'

theorem circ_conforming : Conforming circMesh := conforms_of_check (by decide +kernel)

theorem circ_searchable : circMesh.Searchable where
  layers := by simp [circMesh, Mesh.ofLayers]
  layer := by
    intro l hl
    simp only [circMesh, Mesh.ofLayers, List.mem_singleton] at hl
    subst hl
    refine ⟨⟨?_, ?_, ?_⟩, ?_⟩
    · simp [circLayer, Layer.mk', Layer.bakePolygonFinder]
    · intro p hp
      simp only [circLayer, Layer.mk', Layer.bakePolygonFinder, List.mem_cons, List.not_mem_nil, or_false] at hp
      rcases hp with rfl | rfl | rfl | rfl | rfl | rfl | rfl <;> simp [Polygon.new]
    · intro boxes hb
      simp only [Layer.bakePolygonFinder, Option.some.injEq] at hb
      subst hb
      simp [Layer.bakePolygonFinder]
    · intro boxes hb
      simp only [Layer.bakePolygonFinder, Option.some.injEq] at hb
      subst hb
      rfl

/-- Is the point on the grid of step 4 with 8 × 8 cells? -/
def onGridCirc (v : Vec2 ℚ) : Bool :=
  (List.range 9).any fun i => (List.range 9).any fun j => decide (v = ⟨0 + 4 * i, -16 + 4 * j⟩)

theorem onGridCirc_spec {v : Vec2 ℚ} (h : onGridCirc v = true) : OnGrid (⟨0, -16⟩ : Vec2 ℚ) 4 8 v := by
  unfold onGridCirc at h
  simp only [List.any_eq_true, List.mem_range, decide_eq_true_iff] at h
  obtain ⟨i, hi, j, hj, rfl⟩ := h
  exact ⟨i, j, by omega, by omega, rfl⟩

theorem circ_grid : GridMesh circMesh ⟨8, 8⟩ ⟨20, -12⟩ ⟨0, -16⟩ 4 8 where
  pos := by norm_num
  few := by norm_num
  coarse := by norm_num
  large := by norm_num
  vertices v hv := onGridCirc_spec (vertices_of_check (by decide +kernel) hv)
  start := onGridCirc_spec (by decide +kernel)
  goal := onGridCirc_spec (by decide +kernel)

theorem circ_start : PointOfMesh circMesh (Coords.onMesh (e2 8 8)) ⟨8, 8⟩ where
  pos := rfl
  free := rfl
  inside := ⟨0, by simp [Allowed, Coords.onMesh], 0, by decide, inPolygon_of_check (by decide +kernel)⟩

theorem circ_goal : PointOfMesh circMesh (Coords.onMesh (e2 20 (-12))) ⟨20, -12⟩ where
  pos := rfl
  free := rfl
  inside := ⟨0, by simp [Allowed, Coords.onMesh], 6, by decide, inPolygon_of_check (by decide +kernel)⟩

/-- There is a way from the start to the goal, around the corner at (16, 0). -/
theorem circ_walk : Walk circMesh 0 ⟨8, 8⟩ 6 ⟨20, -12⟩ [⟨16, 0⟩, ⟨20, -12⟩] := by
  refine .cons (s' := 1) (straight_of_check (cs := [(⟨0, 1, 1, 5⟩, 1, 0)]) (by decide +kernel))
    (.cons (s' := 6) (straight_of_check (cs := [(⟨1, 4, 2, 6⟩, 0, 0), (⟨4, 5, 2, 3⟩, 0, 0),
      (⟨5, 6, 11, 12⟩, 1 / 3, 2 / 3)]) (by decide +kernel)) (.nil (inPolygon_of_check (by decide +kernel))))

/-- **C55 is false without a hypothesis on where paths start and bend**, even in exact arithmetic on a mesh of convex
polygons on a coarse grid: when the start is on an interior vertex, the search can turn around this vertex
forever. There is a walk from the start to the goal, but `path` does not find a path, and a future never
resolves, whatever the tie-breaks of the heap. -/
theorem C55_false : ∃ (m : Mesh (Ext ℚ)) (start goal : Vec2 ℚ) (s e : UInt32) (ws : List (Vec2 ℚ)),
    m.Searchable ∧ Conforming m ∧ NoNearMiss m start goal ∧ PointOfMesh m (Coords.onMesh start.fin) start ∧
    PointOfMesh m (Coords.onMesh goal.fin) goal ∧ (∀ l ∈ m.layers, l.islands = none) ∧
    m.getPointLocation everyIndex (Coords.onMesh start.fin) = .ok s ∧
    m.getPointLocation everyIndex (Coords.onMesh goal.fin) = .ok e ∧ Walk m s start e goal ws ∧
    ∀ heap : Heap (Ext ℚ), heap.Max →
      m.path everyIndex heap ⟨false⟩ (Coords.onMesh start.fin) (Coords.onMesh goal.fin) = .ok none ∧
      ∀ r, ¬ Resolves everyIndex heap ⟨false⟩ m (Mesh.getPath start.fin goal.fin) r := by
  refine ⟨circMesh, ⟨8, 8⟩, ⟨20, -12⟩, 0, 6, _, circ_searchable, circ_conforming,
    noNearMiss_of_grid circ_grid.pos circ_grid.few circ_grid.coarse circ_grid.large circ_grid.vertices circ_grid.start
      circ_grid.goal, circ_start, circ_goal, ?_, circ_locate.1, circ_locate.2, circ_walk, ?_⟩
  · intro l hl
    simp only [circMesh, Mesh.ofLayers, List.mem_singleton] at hl
    subst hl
    rfl
  · intro heap hmax
    constructor
    · have h1 : circMesh.endpointPolygon everyIndex (Coords.onMesh (e2 8 8)) = .ok (some 0) := by decide +kernel
      have h2 : circMesh.endpointPolygon everyIndex (Coords.onMesh (e2 20 (-12))) = .ok (some 6) := by decide +kernel
      have h3 : circMesh.islandsDiffer 0 6 = .ok false := by decide +kernel
      unfold Mesh.path Mesh.pathOnLayers
      have e1 : (Coords.onMesh (e2 8 8)).pos = e2 8 8 := rfl
      have e2' : (Coords.onMesh (e2 20 (-12))).pos = e2 20 (-12) := rfl
      change (circMesh.endpointPolygon everyIndex (Coords.onMesh (e2 8 8)) >>= _) = _
      rw [h1, res_bind_ok]
      simp only
      change (circMesh.endpointPolygon everyIndex (Coords.onMesh (e2 20 (-12))) >>= _) = _
      rw [h2, res_bind_ok]
      simp only
      change circMesh.pathBetween heap ⟨false⟩ (e2 8 8) (e2 20 (-12)) 0 6 [] = _
      unfold Mesh.pathBetween
      rw [h3, res_bind_ok, if_neg (by decide), if_neg (by decide), circ_setup, res_bind_ok,
        circ_searchLoop hmax _ circ_first, res_bind_ok]
      rfl
    · intro r h
      suffices H : ∀ f r, Resolves everyIndex heap ⟨false⟩ circMesh f r → f.src = e2 8 8 → f.dst = e2 20 (-12) →
          (f.instance? = none ∨ ∃ q, Circling q ∧ f.instance? = some (circInst q)) → False from
        H _ _ h rfl rfl (.inl rfl)
      intro f r h
      induction h with
      | ready hp =>
        intro h1 h2 h3
        obtain ⟨f', hp', -⟩ := circ_poll hmax h1 h2 h3
        rw [hp] at hp'
        simp at hp'
      | pending hp _ ih =>
        intro h1 h2 h3
        obtain ⟨f', hp', k1, k2, k3⟩ := circ_poll hmax h1 h2 h3
        rw [hp] at hp'
        simp only [Except.ok.injEq, Prod.mk.injEq] at hp'
        obtain ⟨-, rfl⟩ := hp'
        exact ih k1 k2 (.inr k3)

end Polyanya
