import Verif.Props.Ends
import Verif.Props.WalkableExample
import Verif.Proofs.EndsCheck
import Verif.Proofs.Optimal
/-
A concrete mesh that meets the hypotheses of C56: a square ring around a hole.
-/

namespace Polyanya

/-- Four trapezoids around a square hole. -/
def ringLayer : Layer (Ext ℚ) := Layer.mk'
  [ Vertex.new (e2 0 0) [0, 3, u32Max], Vertex.new (e2 48 0) [0, 1, u32Max],
    Vertex.new (e2 48 48) [1, 2, u32Max], Vertex.new (e2 0 48) [2, 3, u32Max],
    Vertex.new (e2 16 16) [0, 3, u32Max], Vertex.new (e2 32 16) [0, 1, u32Max],
    Vertex.new (e2 32 32) [1, 2, u32Max], Vertex.new (e2 16 32) [2, 3, u32Max] ]
  [ Polygon.new [0, 1, 5, 4] false, Polygon.new [1, 2, 6, 5] false,
    Polygon.new [2, 3, 7, 6] false, Polygon.new [3, 0, 4, 7] false ]

def ringMesh : Mesh (Ext ℚ) := Mesh.ofLayers [ringLayer]

theorem ring_conforming : Conforming ringMesh := conforms_of_check (by decide +kernel)

/-- Is the point on the grid of step 4 with 12 × 12 cells? -/
def onGridRing (v : Vec2 ℚ) : Bool :=
  (List.range 13).any fun i => (List.range 13).any fun j => decide (v = ⟨0 + 4 * i, 0 + 4 * j⟩)

theorem onGridRing_spec {v : Vec2 ℚ} (h : onGridRing v = true) : OnGrid (⟨0, 0⟩ : Vec2 ℚ) 4 12 v := by
  unfold onGridRing at h
  simp only [List.any_eq_true, List.mem_range, decide_eq_true_iff] at h
  obtain ⟨i, hi, j, hj, rfl⟩ := h
  exact ⟨i, j, by omega, by omega, rfl⟩

theorem ring_onGrid {v : Vec2 ℝ} (hv : IsVertex ringMesh.real v) :
    OnGrid (⟨0, 0⟩ : Vec2 ℚ).real ((4 : ℚ) : ℝ) 12 v := by
  obtain ⟨w, hw, rfl⟩ := isVertex_real.1 hv
  exact onGrid_real (onGridRing_spec (vertices_of_check (by decide +kernel) hw))

theorem ring_noNearMiss : NoNearMiss ringMesh.real (⟨24, 8⟩ : Vec2 ℚ).real (⟨28, 40⟩ : Vec2 ℚ).real :=
  noNearMiss_of_grid (N := 12) (by norm_num) (by norm_num) (by norm_num) (by norm_num) (fun _ => ring_onGrid)
    (onGrid_real (onGridRing_spec (by decide +kernel))) (onGrid_real (onGridRing_spec (by decide +kernel)))

theorem ring_navigable : Navigable ringMesh.real 0 (⟨24, 8⟩ : Vec2 ℚ).real 2 (⟨28, 40⟩ : Vec2 ℚ).real :=
  navigable_of_check (n := 2) (by decide +kernel)
    (fun _ _ _ _ _ hr hx hy h => noSliver_of_grid (N := 12) (by norm_num) (by norm_num) (by norm_num)
      (fun _ => ring_onGrid) (onGrid_real (onGridRing_spec (by decide +kernel))) hr hx hy h)

theorem ring_walk : Walk ringMesh 0 ⟨24, 8⟩ 2 ⟨28, 40⟩ [⟨32, 16⟩, ⟨32, 32⟩, ⟨28, 40⟩] :=
  .cons (s' := 1) (straight_of_check (cs := [(⟨0, 1, 1, 5⟩, 1, 1)]) (by decide +kernel))
    (.cons (s' := 2) (straight_of_check (cs := [(⟨1, 2, 2, 6⟩, 1, 1)]) (by decide +kernel))
      (.cons (s' := 2) (straight_of_check (cs := []) (by decide +kernel))
        (.nil (inPolygon_of_check (by decide +kernel)))))

/-- Which polygons of a mesh contain a point, decided over the rationals. -/
theorem inPolygon_real_only {m : Mesh (Ext ℚ)} {x : Vec2 ℚ} {t : UInt32}
    (h : ∀ id ∈ polygonIds m, (ringOf m id).isSome = true ∧ (insideCheck m id x = true → id = t)) {id : UInt32}
    (hi : InPolygon m.real id x.real) :
    id = t := by
  obtain ⟨ps, hr, hin⟩ := hi
  obtain ⟨qs, hq, rfl⟩ := ring_real.1 hr
  have hin' : InPolygon m id x := by
    refine ⟨qs, hq, fun a b hab => ?_⟩
    have := hin a.real b.real (consecutive_real.2 ⟨a, b, hab, rfl, rfl⟩)
    rw [tri_real] at this
    exact_mod_cast this
  obtain ⟨l, p, hh, -⟩ := hq
  obtain ⟨h1, h2⟩ := h id (mem_polygonIds hh)
  obtain ⟨rs, hrs⟩ := Option.isSome_iff_exists.1 h1
  exact h2 ((inPolygon_iff_check hrs).1 hin')

/-- All hypotheses of C56 are met: the future resolves with a shortest path around the hole. -/
theorem ring_found (heap : Heap (Ext ℝ)) (hmax : heap.Max) :
    ∃ p, Resolves everyIndex heap ⟨false⟩ ringMesh.real
        (Mesh.getPath (⟨24, 8⟩ : Vec2 ℚ).real.fin (⟨28, 40⟩ : Vec2 ℚ).real.fin) (some p) ∧
      ShortestPath ringMesh.real 0 (⟨24, 8⟩ : Vec2 ℚ).real 2 (⟨28, 40⟩ : Vec2 ℚ).real p := by
  have hcheck : soundCheck ringMesh = true := by decide +kernel
  have hs : InPolygon ringMesh.real 0 (⟨24, 8⟩ : Vec2 ℚ).real :=
    inPolygon_real (inPolygon_of_check (by decide +kernel))
  have he : InPolygon ringMesh.real 2 (⟨28, 40⟩ : Vec2 ℚ).real :=
    inPolygon_real (inPolygon_of_check (by decide +kernel))
  have onlyS : ∀ s, InPolygon ringMesh.real s (⟨24, 8⟩ : Vec2 ℚ).real → s = 0 :=
    fun s h => inPolygon_real_only (by decide +kernel) h
  have onlyE : ∀ e, InPolygon ringMesh.real e (⟨28, 40⟩ : Vec2 ℚ).real → e = 2 :=
    fun e h => inPolygon_real_only (by decide +kernel) h
  obtain ⟨p, s, e, hp, is, ie, hsp⟩ := C56_get_path everyIndex everyIndex_complete heap hmax ⟨false⟩ rfl ringMesh.real
    (sound_wf hcheck) (sound_noNan hcheck) (searchable_of_check hcheck) (conforming_real ring_conforming)
    (.inl (islands_of_check hcheck)) _ _ ⟨0, rfl, hs⟩ ⟨2, rfl, he⟩
    (sharp_of_grid (by norm_num) (fun _ => ring_onGrid) (onGrid_real (onGridRing_spec (by decide +kernel))))
    (sharp_of_grid (by norm_num) (fun _ => ring_onGrid) (onGrid_real (onGridRing_spec (by decide +kernel))))
    (fun s e h1 h2 => by rw [onlyS s h1, onlyE e h2]; exact ring_navigable) ring_noNearMiss
    (linked_of_check (s := 0) (start := ⟨24, 8⟩) (n := 2) (by decide +kernel))
    (notEnclosed_of_off (by decide +kernel)) (bends_of_check (by decide +kernel))
    (fun s e h1 h2 => by rw [onlyS s h1, onlyE e h2]; exact ⟨_, walk_real ring_walk⟩)
  rw [onlyS s is, onlyE e ie] at hsp
  exact ⟨p, hp, hsp⟩

end Polyanya
