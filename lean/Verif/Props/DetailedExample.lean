import Verif.Props.Detailed
import Verif.Props.ShortestExample
import Verif.Proofs.GridSpaced
/-
A concrete mesh that meets the hypotheses of C76.
-/

namespace Polyanya

/-- A large dart: two triangles with the common edge from (0, 0) to (128, 0). -/
def bigDartLayer : Layer (Ext ℚ) := Layer.mk'
  [ Vertex.new (e2 0 0) [0, 1, u32Max], Vertex.new (e2 128 0) [0, 1, u32Max],
    Vertex.new (e2 256 192) [0, u32Max], Vertex.new (e2 256 (-192)) [1, u32Max] ]
  [ Polygon.new [0, 1, 2] true, Polygon.new [1, 0, 3] true ]

def bigDart : Mesh (Ext ℚ) := Mesh.ofLayers [bigDartLayer]

theorem bigDart_conforming : Conforming bigDart := conforms_of_check (by decide +kernel)

def onGridBig (v : Vec2 ℚ) : Bool :=
  (List.range 7).any fun i => (List.range 7).any fun j => decide (v = ⟨0 + 64 * i, -192 + 64 * j⟩)

theorem onGridBig_spec {v : Vec2 ℚ} (h : onGridBig v = true) : OnGrid (⟨0, -192⟩ : Vec2 ℚ) 64 6 v := by
  unfold onGridBig at h
  simp only [List.any_eq_true, List.mem_range, decide_eq_true_iff] at h
  obtain ⟨i, hi, j, hj, rfl⟩ := h
  exact ⟨i, j, by omega, by omega, rfl⟩

theorem bigDart_onGrid {v : Vec2 ℝ} (hv : IsVertex bigDart.real v) :
    OnGrid (⟨0, -192⟩ : Vec2 ℚ).real ((64 : ℚ) : ℝ) 6 v := by
  obtain ⟨w, hw, rfl⟩ := isVertex_real.1 hv
  exact onGrid_real (onGridBig_spec (vertices_of_check (by decide +kernel) hw))

theorem bigDart_noNearMiss : NoNearMiss bigDart.real (⟨192, 128⟩ : Vec2 ℚ).real (⟨192, -128⟩ : Vec2 ℚ).real :=
  noNearMiss_of_grid (N := 6) (by norm_num) (by norm_num) (by norm_num) (by norm_num) (fun _ => bigDart_onGrid)
    (onGrid_real (onGridBig_spec (by decide +kernel))) (onGrid_real (onGridBig_spec (by decide +kernel)))

theorem bigDart_spaced : Spaced bigDart.real (⟨192, 128⟩ : Vec2 ℚ).real (⟨192, -128⟩ : Vec2 ℚ).real :=
  spaced_of_grid (N := 6) (by norm_num) (by norm_num) (fun _ => bigDart_onGrid)
    (onGrid_real (onGridBig_spec (by decide +kernel))) (onGrid_real (onGridBig_spec (by decide +kernel)))

theorem bigDart_navigable : Navigable bigDart.real 0 (⟨192, 128⟩ : Vec2 ℚ).real 1 (⟨192, -128⟩ : Vec2 ℚ).real :=
  navigable_of_check (n := 2) (by decide +kernel)
    (fun _ _ _ _ _ hr hx hy h => noSliver_of_grid (N := 6) (by norm_num) (by norm_num) (by norm_num)
      (fun _ => bigDart_onGrid) (onGrid_real (onGridBig_spec (by decide +kernel))) hr hx hy h)

theorem bigDart_walk : Walk bigDart 0 ⟨192, 128⟩ 1 ⟨192, -128⟩ [⟨128, 0⟩, ⟨192, -128⟩] :=
  .cons (s' := 1) (straight_of_check (cs := [(⟨0, 1, 0, 1⟩, 1, 1)]) (by decide +kernel))
    (.cons (s' := 1) (straight_of_check (cs := []) (by decide +kernel)) (.nil (inPolygon_of_check (by decide +kernel))))

theorem bigDart_unscaled : bigDart.real.Unscaled where
  one := by
    intro l hl
    simp only [bigDart, Mesh.ofLayers, Mesh.real, List.map_cons, List.map_nil, List.mem_singleton] at hl
    subst hl
    have e : bigDartLayer.scale = Vec2.one := rfl
    simp only [Layer.real, e]
    rw [Vec2.extReal]
    simp only [Vec2.one, Scalar.lit]
    simp [Ext.real, ExactField.lit]
  small := by
    intro l hl
    simp only [bigDart, Mesh.ofLayers, Mesh.real, List.map_cons, List.map_nil, List.mem_singleton] at hl
    subst hl
    simp [Layer.real, bigDartLayer, Layer.mk']

theorem bigDart_wf : bigDart.real.WF ⟨true⟩ where
  layers := by simp [bigDart, Mesh.ofLayers, Mesh.real]
  layer := by
    intro l hl
    simp only [bigDart, Mesh.ofLayers, Mesh.real, List.map_cons, List.map_nil, List.mem_singleton] at hl
    subst hl
    refine ⟨⟨?_, ?_, ?_⟩, ?_⟩
    · simp [bigDartLayer, Layer.mk', Layer.real]
    · intro p hp
      simp only [bigDartLayer, Layer.mk', Layer.real, List.mem_cons, List.not_mem_nil, or_false] at hp
      rcases hp with rfl | rfl <;> simp [Polygon.new]
    · simp [bigDartLayer, Layer.mk', Layer.real]
    · intro p hp
      simp only [bigDartLayer, Layer.mk', Layer.real, List.mem_cons, List.not_mem_nil, or_false] at hp
      rcases hp with rfl | rfl <;> simp [Polygon.new, bigDartLayer, Layer.mk', Layer.real]
  refs := by
    intro l hl v hv id hid hne
    have hlay : l = bigDartLayer.real := by
      simpa [bigDart, Mesh.ofLayers, Mesh.real] using hl
    subst hlay
    have : id = 0 ∨ id = 1 := by
      simp only [bigDartLayer, Layer.mk', Layer.real, List.map_cons, List.map_nil, List.mem_cons, List.not_mem_nil,
        or_false] at hv
      rcases hv with rfl | rfl | rfl | rfl <;> simp [Vertex.new, Vertex.real, hne] at hid <;> tauto
    rcases this with rfl | rfl
    · exact ⟨_, _, hasPolygon_real.2 ⟨bigDartLayer, ⟨rfl, rfl⟩, rfl⟩⟩
    · exact ⟨_, _, hasPolygon_real.2 ⟨bigDartLayer, ⟨rfl, rfl⟩, rfl⟩⟩
  vertices := by
    intro _ l hl
    simp only [bigDart, Mesh.ofLayers, Mesh.real, List.map_cons, List.map_nil, List.mem_singleton] at hl
    subst hl
    simp [Layer.real, bigDartLayer, Layer.mk']

theorem bigDart_noNan : bigDart.real.NoNan := by
  apply noNan_of_finite
  intro l hl v hv
  have hlay : l = bigDartLayer.real := by
    simpa [bigDart, Mesh.ofLayers, Mesh.real] using hl
  subst hlay
  simp only [Layer.real, List.mem_map] at hv
  obtain ⟨w, hw, rfl⟩ := hv
  have hf : ∀ w ∈ bigDartLayer.vertices, (toFin (w.coords + bigDartLayer.offset)).isSome = true := by decide +kernel
  obtain ⟨y, hy⟩ := Option.isSome_iff_exists.1 (hf w hw)
  refine ⟨y.real, ?_⟩
  have := extReal_eq_fin.2 ⟨y, toFin_eq.1 hy, rfl⟩
  rw [extReal_add] at this
  exact this

def bigDartStart : Coords (Ext ℝ) := { pos := (⟨192, 128⟩ : Vec2 ℚ).real.fin, layer := some 0, polygonIndex := 0 }
def bigDartGoal : Coords (Ext ℝ) := { pos := (⟨192, -128⟩ : Vec2 ℚ).real.fin, layer := some 0, polygonIndex := 1 }

theorem bigDart_setting : Setting ⟨⟨true⟩, bigDart.real, (bigDartStart.pos, 0), (bigDartGoal.pos, 1), []⟩
    (⟨192, 128⟩ : Vec2 ℚ).real (⟨192, -128⟩ : Vec2 ℚ).real where
  conforming := conforming_real bigDart_conforming
  exact := bigDart_noNearMiss
  nav := bigDart_navigable
  dst := by decide
  src := rfl
  goalAt := rfl
  src_in := inPolygon_real (inPolygon_of_check (by decide +kernel))
  dst_in := inPolygon_real (inPolygon_of_check (by decide +kernel))
  plain := fun _ => bigDart_unscaled
  free := rfl

theorem bigDart_only (n : SearchNode (Ext ℝ))
    (h : SetupNode ⟨⟨true⟩, bigDart.real, (bigDartStart.pos, 0), (bigDartGoal.pos, 1), []⟩ n) : n.polygonTo = 1 := by
  obtain ⟨l, p, es, e, st, sp, h1, h2, h3, h4, h5, h6, h7, h8, hA⟩ := h.ex
  rw [(added_fields hA).2.1]
  rcases h8 with h8 | ⟨-, l', p', k1, k2, k3⟩
  · exact h8
  · exfalso
    have : ∀ l' ∈ bigDart.real.layers, ∀ p' ∈ l'.polygons, p'.isOneWay = true := by
      intro l' hl' p' hp'
      simp only [Mesh.real, List.mem_map] at hl'
      obtain ⟨k, hk, rfl⟩ := hl'
      have hf : ∀ k ∈ bigDart.layers, ∀ p ∈ k.polygons, p.isOneWay = true := by decide +kernel
      exact hf k hk p' hp'
    rw [this _ (List.mem_of_getElem? k1) _ (List.mem_of_getElem? k2)] at k3
    cases k3

/-- The hypotheses of C76 are met, and with `detailed-layers` too `path` returns a shortest path around a corner. -/
theorem bigDart_shortest (heap : Heap (Ext ℝ)) (hmax : heap.Max) :
    ∃ p, bigDart.real.path everyIndex heap ⟨true⟩ bigDartStart bigDartGoal = .ok (some p) ∧
      ShortestPath bigDart.real 0 (⟨192, 128⟩ : Vec2 ℚ).real 1 (⟨192, -128⟩ : Vec2 ℚ).real p := by
  have hw0 : bigDartStart.WF bigDart.real := by
    refine ⟨?_, fun _ => ⟨_, _, hasPolygon_real.2 ⟨bigDartLayer, ⟨rfl, rfl⟩, rfl⟩⟩⟩
    intro i hi
    simp only [bigDartStart, Option.some.injEq] at hi
    subst hi
    simp [bigDart, Mesh.ofLayers, Mesh.real]
  have hw1 : bigDartGoal.WF bigDart.real := by
    refine ⟨?_, fun _ => ⟨_, _, hasPolygon_real.2 ⟨bigDartLayer, ⟨rfl, rfl⟩, rfl⟩⟩⟩
    intro i hi
    simp only [bigDartGoal, Option.some.injEq] at hi
    subst hi
    simp [bigDart, Mesh.ofLayers, Mesh.real]
  have hls : Located bigDart.real everyIndex bigDartStart 0 := .inl ⟨by decide, rfl⟩
  have hle : Located bigDart.real everyIndex bigDartGoal 1 := .inl ⟨by decide, rfl⟩
  obtain ⟨r, hr⟩ := C10_path everyIndex heap ⟨true⟩ bigDart.real bigDartStart bigDartGoal []
    (everyIndex_complete.inRange) bigDart_wf bigDart_noNan hw0 hw1 (by
      rintro - s e p hs he hf
      have e1 : s = 0 := by
        rcases hs with ⟨-, h⟩ | ⟨h, -⟩
        · exact h
        · exact absurd h (by decide)
      have e2 : e = 1 := by
        rcases he with ⟨-, h⟩ | ⟨h, -⟩
        · exact h
        · exact absurd h (by decide)
      subst e1 e2
      obtain ⟨ws, x, -, -, h, -⟩ := foundBy_detailed bigDart_setting.exactly rfl hf
      rw [h]; rfl)
  have hwalk := walk_real bigDart_walk
  rcases C76_complete everyIndex heap hmax ⟨true⟩ rfl bigDart.real bigDart_unscaled
    (fun l hl => (bigDart_wf.layer l hl).sized) bigDart_setting.conforming (fun _ => .inl <| by
      intro l hl
      simp only [bigDart, Mesh.ofLayers, Mesh.real, List.map_cons, List.map_nil, List.mem_singleton] at hl
      subst hl
      rfl) bigDartStart bigDartGoal _ _ rfl rfl 0 1 hls hle bigDart_setting.src_in bigDart_navigable bigDart_setting.dst_in
      bigDart_noNearMiss _ hwalk r hr with ⟨p, rfl, -, hp⟩ | ⟨rfl, inst, inst', hset, hpoll⟩
  · exact ⟨p, hr, hp bigDart_spaced⟩
  · exfalso
    obtain ⟨opt, -, k1, k2, -⟩ := shortest_of_held bigDart_setting hwalk (by decide) hset
    obtain ⟨n, hn, -⟩ := k2
    exact found_at_once (k := 19) bigDart_setting bigDart_only k1 (List.ne_nil_of_mem hn) hpoll

/-- The scope of the claims about both builds (C59, C61, C64, C74) is met with `detailed-layers` as well, and the hypotheses
of C76_length are met. -/
theorem bigDart_plain (cfg : Cfg) : cfg.Plain bigDart.real (⟨192, 128⟩ : Vec2 ℚ).real (⟨192, -128⟩ : Vec2 ℚ).real :=
  fun _ => ⟨bigDart_unscaled, bigDart_spaced⟩

example (heap : Heap (Ext ℝ)) (blocked : List UInt8) (p : Path (Ext ℝ))
    (h : bigDart.real.pathOnLayers everyIndex heap ⟨true⟩ bigDartStart bigDartGoal blocked = .ok (some p)) :
    ∃ ws x, p.path = ws.map Vec2.fin ∧ p.length = Ext.fin x ∧
      dist2 (⟨192, 128⟩ : Vec2 ℚ).real (⟨192, -128⟩ : Vec2 ℚ).real ≤ x ∧
      x = polyLen ((⟨192, 128⟩ : Vec2 ℚ).real :: ws) := by
  have hl : ∀ s, Located bigDart.real everyIndex bigDartStart s → s = 0 := by
    rintro s (⟨-, h⟩ | ⟨h, -⟩)
    · exact h
    · exact absurd h (by decide)
  have hl' : ∀ s, Located bigDart.real everyIndex bigDartGoal s → s = 1 := by
    rintro s (⟨-, h⟩ | ⟨h, -⟩)
    · exact h
    · exact absurd h (by decide)
  obtain ⟨ws, x, h1, h2, h3, -, h4⟩ := C76_length everyIndex heap ⟨true⟩ rfl bigDart.real bigDart_unscaled
    (fun l hl => (bigDart_wf.layer l hl).sized) bigDart_setting.conforming bigDartStart bigDartGoal _ _ rfl rfl
    (fun s h => hl s h ▸ bigDart_setting.src_in) (fun e h => hl' e h ▸ bigDart_setting.dst_in) bigDart_noNearMiss blocked p h
  exact ⟨ws, x, h1, h2, h3, h4 bigDart_spaced⟩

end Polyanya
