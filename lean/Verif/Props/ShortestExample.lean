import Verif.Props.Shortest
import Verif.Props.Safety
import Verif.Props.WalkableExample
import Verif.Proofs.NavCheck
/-
A concrete mesh that meets the hypotheses of C54.
-/

namespace Polyanya

/-- Two triangles with the common edge from (0, 0) to (16, 0): a dart with a reflex corner at (16, 0). -/
def dartLayer : Layer (Ext ℚ) := Layer.mk'
  [ Vertex.new (e2 0 0) [0, 1, u32Max], Vertex.new (e2 16 0) [0, 1, u32Max],
    Vertex.new (e2 32 24) [0, u32Max], Vertex.new (e2 32 (-24)) [1, u32Max] ]
  [ Polygon.new [0, 1, 2] true, Polygon.new [1, 0, 3] true ]

def dartMesh : Mesh (Ext ℚ) := Mesh.ofLayers [dartLayer]

theorem dart_conforming : Conforming dartMesh := conforms_of_check (by decide +kernel)

/-- Is the point on the grid of step 4 with 12 × 12 cells? -/
def onGridDart (v : Vec2 ℚ) : Bool :=
  (List.range 13).any fun i => (List.range 13).any fun j => decide (v = ⟨0 + 4 * i, -24 + 4 * j⟩)

theorem onGridDart_spec {v : Vec2 ℚ} (h : onGridDart v = true) : OnGrid (⟨0, -24⟩ : Vec2 ℚ) 4 12 v := by
  unfold onGridDart at h
  simp only [List.any_eq_true, List.mem_range, decide_eq_true_iff] at h
  obtain ⟨i, hi, j, hj, rfl⟩ := h
  exact ⟨i, j, by omega, by omega, rfl⟩

theorem dart_onGrid {v : Vec2 ℝ} (hv : IsVertex dartMesh.real v) :
    OnGrid (⟨0, -24⟩ : Vec2 ℚ).real ((4 : ℚ) : ℝ) 12 v := by
  obtain ⟨w, hw, rfl⟩ := isVertex_real.1 hv
  exact onGrid_real (onGridDart_spec (vertices_of_check (by decide +kernel) hw))

theorem dart_noNearMiss : NoNearMiss dartMesh.real (⟨24, 16⟩ : Vec2 ℚ).real (⟨24, -16⟩ : Vec2 ℚ).real :=
  noNearMiss_of_grid (N := 12) (by norm_num) (by norm_num) (by norm_num) (by norm_num) (fun _ => dart_onGrid)
    (onGrid_real (onGridDart_spec (by decide +kernel))) (onGrid_real (onGridDart_spec (by decide +kernel)))

theorem dart_navigable : Navigable dartMesh.real 0 (⟨24, 16⟩ : Vec2 ℚ).real 1 (⟨24, -16⟩ : Vec2 ℚ).real :=
  navigable_of_check (n := 2) (by decide +kernel)
    (fun _ _ _ _ _ hr hx hy h => noSliver_of_grid (N := 12) (by norm_num) (by norm_num) (by norm_num)
      (fun _ => dart_onGrid) (onGrid_real (onGridDart_spec (by decide +kernel))) hr hx hy h)

theorem dart_walk : Walk dartMesh 0 ⟨24, 16⟩ 1 ⟨24, -16⟩ [⟨16, 0⟩, ⟨24, -16⟩] :=
  .cons (s' := 1) (straight_of_check (cs := [(⟨0, 1, 0, 1⟩, 1, 1)]) (by decide +kernel))
    (.cons (s' := 1) (straight_of_check (cs := []) (by decide +kernel)) (.nil (inPolygon_of_check (by decide +kernel))))

/-- Every reference of the dart is in range. -/
theorem dart_wf : dartMesh.real.WF ⟨false⟩ where
  layers := by simp [dartMesh, Mesh.ofLayers, Mesh.real]
  layer := by
    intro l hl
    simp only [dartMesh, Mesh.ofLayers, Mesh.real, List.map_cons, List.map_nil, List.mem_singleton] at hl
    subst hl
    refine ⟨⟨?_, ?_, ?_⟩, ?_⟩
    · simp [dartLayer, Layer.mk', Layer.real]
    · intro p hp
      simp only [dartLayer, Layer.mk', Layer.real, List.mem_cons, List.not_mem_nil, or_false] at hp
      rcases hp with rfl | rfl <;> simp [Polygon.new]
    · simp [dartLayer, Layer.mk', Layer.real]
    · intro p hp
      simp only [dartLayer, Layer.mk', Layer.real, List.mem_cons, List.not_mem_nil, or_false] at hp
      rcases hp with rfl | rfl <;> simp [Polygon.new, dartLayer, Layer.mk', Layer.real]
  refs := by
    intro l hl v hv id hid hne
    have hlay : l = dartLayer.real := by
      simpa [dartMesh, Mesh.ofLayers, Mesh.real] using hl
    subst hlay
    have : id = 0 ∨ id = 1 := by
      simp only [dartLayer, Layer.mk', Layer.real, List.map_cons, List.map_nil, List.mem_cons, List.not_mem_nil,
        or_false] at hv
      rcases hv with rfl | rfl | rfl | rfl <;> simp [Vertex.new, Vertex.real, hne] at hid <;> tauto
    rcases this with rfl | rfl
    · exact ⟨_, _, hasPolygon_real.2 ⟨dartLayer, ⟨rfl, rfl⟩, rfl⟩⟩
    · exact ⟨_, _, hasPolygon_real.2 ⟨dartLayer, ⟨rfl, rfl⟩, rfl⟩⟩
  vertices := by simp

theorem noNan_of_finite {m : Mesh (Ext ℝ)}
    (h : ∀ l ∈ m.layers, ∀ v ∈ l.vertices, ∃ x : Vec2 ℝ, v.coords + l.offset = x.fin) : m.NoNan where
  dist l hl v hv l' hl' v' hv' := by
    obtain ⟨x, hx⟩ := h l hl v hv
    obtain ⟨y, hy⟩ := h l' hl' v' hv'
    rw [hx, hy, fin_distanceSquared]
    rfl

theorem dart_noNan : dartMesh.real.NoNan := by
  apply noNan_of_finite
  intro l hl v hv
  have hlay : l = dartLayer.real := by
    simpa [dartMesh, Mesh.ofLayers, Mesh.real] using hl
  subst hlay
  simp only [Layer.real, List.mem_map] at hv
  obtain ⟨w, hw, rfl⟩ := hv
  have hf : ∀ w ∈ dartLayer.vertices, (toFin (w.coords + dartLayer.offset)).isSome = true := by decide +kernel
  obtain ⟨y, hy⟩ := Option.isSome_iff_exists.1 (hf w hw)
  refine ⟨y.real, ?_⟩
  have := extReal_eq_fin.2 ⟨y, toFin_eq.1 hy, rfl⟩
  rw [extReal_add] at this
  exact this

/-- When only the polygon of the goal can be entered from the polygon of the start, the first node of the queue that
is popped ends the search. -/
theorem found_at_once {q : Query (Ext ℝ)} {start goal : Vec2 ℝ} (hs : Setting q start goal)
    (honly : ∀ n, SetupNode q n → n.polygonTo = q.dst.2) {heap : Heap (Ext ℝ)} {inst inst' : Inst (Ext ℝ)} {k : Nat}
    (hk : Kept q inst) (hne : inst.queue ≠ [])
    (h : pollSteps heap q.cfg q.mesh (k + 1) inst = .ok (none, inst')) : False := by
  have hgen : ∀ n, Gen q n → SetupNode q n := by
    intro n hn
    induction hn with
    | setup h => exact h
    | child _ hc ih =>
      obtain ⟨_, _, _, _, _, _, h0, -⟩ := hc.ex
      exact absurd (honly _ ih) h0
  have hzero : ∀ n, Gen q n → n.distanceStartToRoot = Ext.fin 0 := by
    intro n hn
    obtain ⟨_, _, _, _, _, _, -, -, -, -, -, -, -, -, hA⟩ := (hgen n hn).ex
    obtain ⟨newF, hh, h1, -, h3, -, rfl⟩ := hA
    have hb : q.src.1.beq (emptyNode q.src).root = true := by
      change q.src.1.beq q.src.1 = true
      rw [hs.src]
      exact (fin_beq _ _).2 rfl
    rw [newDistance, if_pos hb] at h1
    simp only [Except.ok.injEq] at h1
    subst h1
    change (Scalar.lit 0 0 : Ext ℝ) = Ext.fin 0
    rw [ext_zero]
  obtain ⟨n, r, hpop⟩ := heap.pop_some inst.queue hne
  have hn : Gen q n := hk.ok.queue n ((heap.pop_perm _ _ _ hpop).subset List.mem_cons_self)
  simp only [pollSteps, bind_eq_ok] at h
  obtain ⟨⟨st, i⟩, hnx, h⟩ := h
  unfold Inst.next at hnx
  rw [hpop] at hnx
  simp only at hnx
  have hdom : isDominated { inst with queue := r } n = false := by
    unfold isDominated
    split
    · rename_i o ho
      simp only at ho
      have : o = Ext.fin 0 := by
        unfold histGet at ho
        simp only [Option.map_eq_some_iff] at ho
        obtain ⟨e, he, rfl⟩ := ho
        rcases hk.hist e (List.mem_of_find?_eq_some he) with rfl | ⟨n', hn', rfl⟩
        · rfl
        · exact hzero n' hn'
      rw [this, hzero n hn]
      rw [Bool.eq_false_iff]
      intro hc
      rw [ext_lt] at hc
      exact lt_irrefl _ hc
    · rfl
  rw [hdom] at hnx
  simp only [Bool.false_eq_true, if_false] at hnx
  rw [if_pos (by rw [honly n (hgen n hn), hk.ok.polygonTo])] at hnx
  simp only [bind_eq_ok, Except.ok.injEq, Prod.mk.injEq] at hnx
  obtain ⟨p, -, rfl, -⟩ := hnx
  simp at h

/-- The start and the goal, in known polygons. -/
def dartStart : Coords (Ext ℝ) := { pos := (⟨24, 16⟩ : Vec2 ℚ).real.fin, layer := some 0, polygonIndex := 0 }
def dartGoal : Coords (Ext ℝ) := { pos := (⟨24, -16⟩ : Vec2 ℚ).real.fin, layer := some 0, polygonIndex := 1 }

theorem dart_setting : Setting ⟨⟨false⟩, dartMesh.real, (dartStart.pos, 0), (dartGoal.pos, 1), []⟩
    (⟨24, 16⟩ : Vec2 ℚ).real (⟨24, -16⟩ : Vec2 ℚ).real where
  conforming := conforming_real dart_conforming
  exact := dart_noNearMiss
  nav := dart_navigable
  dst := by decide
  src := rfl
  goalAt := rfl
  src_in := inPolygon_real (inPolygon_of_check (by decide +kernel))
  dst_in := inPolygon_real (inPolygon_of_check (by decide +kernel))
  plain := plain_of rfl
  free := rfl

theorem dart_only (n : SearchNode (Ext ℝ))
    (h : SetupNode ⟨⟨false⟩, dartMesh.real, (dartStart.pos, 0), (dartGoal.pos, 1), []⟩ n) : n.polygonTo = 1 := by
  obtain ⟨l, p, es, e, st, sp, h1, h2, h3, h4, h5, h6, h7, h8, hA⟩ := h.ex
  rw [(added_fields hA).2.1]
  rcases h8 with h8 | ⟨-, l', p', k1, k2, k3⟩
  · exact h8
  · exfalso
    -- both triangles are flagged as dead ends
    have : ∀ l' ∈ dartMesh.real.layers, ∀ p' ∈ l'.polygons, p'.isOneWay = true := by
      intro l' hl' p' hp'
      simp only [Mesh.real, List.mem_map] at hl'
      obtain ⟨k, hk, rfl⟩ := hl'
      have hf : ∀ k ∈ dartMesh.layers, ∀ p ∈ k.polygons, p.isOneWay = true := by decide +kernel
      exact hf k hk p' hp'
    rw [this _ (List.mem_of_getElem? k1) _ (List.mem_of_getElem? k2)] at k3
    cases k3

/-- The hypotheses of C54 are met, and `path` returns a shortest path, by a query that bends around a corner. -/
theorem dart_shortest (heap : Heap (Ext ℝ)) (hmax : heap.Max) :
    ∃ p, dartMesh.real.path everyIndex heap ⟨false⟩ dartStart dartGoal = .ok (some p) ∧
      ShortestPath dartMesh.real 0 (⟨24, 16⟩ : Vec2 ℚ).real 1 (⟨24, -16⟩ : Vec2 ℚ).real p := by
  have hw0 : dartStart.WF dartMesh.real := by
    refine ⟨?_, fun _ => ⟨_, _, hasPolygon_real.2 ⟨dartLayer, ⟨rfl, rfl⟩, rfl⟩⟩⟩
    intro i hi
    simp only [dartStart, Option.some.injEq] at hi
    subst hi
    simp [dartMesh, Mesh.ofLayers, Mesh.real]
  have hw1 : dartGoal.WF dartMesh.real := by
    refine ⟨?_, fun _ => ⟨_, _, hasPolygon_real.2 ⟨dartLayer, ⟨rfl, rfl⟩, rfl⟩⟩⟩
    intro i hi
    simp only [dartGoal, Option.some.injEq] at hi
    subst hi
    simp [dartMesh, Mesh.ofLayers, Mesh.real]
  obtain ⟨r, hr⟩ := C10_path everyIndex heap ⟨false⟩ dartMesh.real dartStart dartGoal []
    (everyIndex_complete.inRange) dart_wf dart_noNan hw0 hw1 (by simp)
  have hls : Located dartMesh.real everyIndex dartStart 0 := .inl ⟨by decide, rfl⟩
  have hle : Located dartMesh.real everyIndex dartGoal 1 := .inl ⟨by decide, rfl⟩
  have hwalk := walk_real dart_walk
  rcases C54_complete everyIndex heap hmax ⟨false⟩ rfl dartMesh.real
    (fun l hl => (dart_wf.layer l hl).sized) dart_setting.conforming (fun _ => .inl <| by
      intro l hl
      simp only [dartMesh, Mesh.ofLayers, Mesh.real, List.map_cons, List.map_nil, List.mem_singleton] at hl
      subst hl
      rfl) dartStart dartGoal _ _ rfl rfl 0 1 hls hle dart_setting.src_in dart_navigable dart_setting.dst_in
      dart_noNearMiss _ hwalk r hr with ⟨p, rfl, hp⟩ | ⟨rfl, inst, inst', hset, hpoll⟩
  · exact ⟨p, hr, hp⟩
  · exfalso
    obtain ⟨opt, -, k1, k2, -⟩ := shortest_of_held dart_setting hwalk (by decide) hset
    obtain ⟨n, hn, -⟩ := k2
    exact found_at_once (k := 19) dart_setting dart_only k1 (List.ne_nil_of_mem hn) hpoll

/-- There are heaps that respect the contract. -/
theorem realHeap_max : (maxHeap : Heap (Ext ℝ)).Max := maxHeap_max

end Polyanya
