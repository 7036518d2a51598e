import Verif.Props.Narrower
import Verif.Props.BlockedExample
import Verif.Props.MetricExample
/-
Concrete queries that meet the hypotheses of C74.
-/

namespace Polyanya

theorem cutOff_nil (m : Mesh (Ext ℝ)) : m.cutOff [] = m := by
  have hv : (Vertex.cutOff [] : Vertex (Ext ℝ) → _) = id := by
    funext v
    simp [Vertex.cutOff]
  have hl : (Layer.cutOff [] : Layer (Ext ℝ) → _) = id := by
    funext l
    simp [Layer.cutOff, hv]
  simp [Mesh.cutOff, hl]

theorem notch_navigable_open :
    Navigable (notchMesh.real.cutOff []) 0 (⟨24, 16⟩ : Vec2 ℚ).real 1 (⟨24, -16⟩ : Vec2 ℚ).real := by
  rw [cutOff_nil]
  exact navigable_of_shape (n := 4) (ids := polygonIds notchMesh) (by decide +kernel) (corners_of_check (by decide +kernel))
    (fun _ _ _ _ _ hr hx hy h => noSliver_of_grid (N := 12) (by norm_num) (by norm_num) (by norm_num)
      (fun _ hv => notch_onGrid hv) (onGrid_real (onGridDart_spec (by decide +kernel))) hr hx hy h)

theorem notch_exact_open :
    ExactAvoiding notchMesh.real [] everyIndex dartStart (⟨24, 16⟩ : Vec2 ℚ).real 0 dartGoal
      (⟨24, -16⟩ : Vec2 ℚ).real 1 :=
  ⟨rfl, rfl, .inl ⟨by decide, rfl⟩, .inl ⟨by decide, rfl⟩, inPolygon_cutOff.1 notch_setting.src_in,
    inPolygon_cutOff.1 notch_setting.dst_in, notch_navigable_open, notch_noNearMiss⟩

theorem notch_exact_blocked :
    ExactAvoiding notchMesh.real [1] everyIndex dartStart (⟨24, 16⟩ : Vec2 ℚ).real 0 dartGoal
      (⟨24, -16⟩ : Vec2 ℚ).real 1 :=
  ⟨rfl, rfl, .inl ⟨by decide, rfl⟩, .inl ⟨by decide, rfl⟩, inPolygon_cutOff.1 notch_setting.src_in,
    inPolygon_cutOff.1 notch_setting.dst_in, notch_navigable, notch_noNearMiss⟩

theorem notch_sized : notchMesh.real.Sized :=
  fun l hl => ((sound_wf (m := notchMesh) (by decide +kernel)).layer l hl).sized

/-- Blocking the layer that fills the notch never makes the path shorter: the hypotheses of C74 are met, and the path
around the notch exists. -/
example (heap : Heap (Ext ℝ)) (hmax : heap.Max) (r : Option (Path (Ext ℝ)))
    (h : notchMesh.real.pathOnLayers everyIndex heap ⟨false⟩ dartStart dartGoal [] = .ok r) :
    ∃ p', notchMesh.real.pathOnLayers everyIndex heap ⟨false⟩ dartStart dartGoal [1] = .ok (some p') ∧
      ((∃ p, r = some p ∧ ∃ l l' : ℝ, p.length = .fin l ∧ p'.length = .fin l' ∧ l ≤ l') ∨
       (r = none ∧ BudgetUsedUp heap ⟨false⟩ (notchMesh.real.cutOff []) dartStart.pos dartGoal.pos 0 1)) := by
  obtain ⟨p', h', -⟩ := notch_shortest heap hmax
  exact ⟨p', h', C74_blocked_found everyIndex heap heap hmax hmax ⟨false⟩ notchMesh.real notch_sized
    notch_oneOtherSide (conforming_real notch_conforming) (by simp [notchMesh, Mesh.ofLayers, Mesh.real]) [] [1]
    (by simp) dartStart dartGoal _ _ (Cfg.plain_default _ _ _) 0 1 notch_exact_open notch_exact_blocked p' r h' h⟩

/-- The mesh in which a layer is cut off is narrower. -/
theorem narrower_cutOff {F : Type} [Field F] [LinearOrder F] [IsStrictOrderedRing F] [Scalar F] (m : Mesh (Ext F))
    (B : List UInt8) : Narrower (m.cutOff B) m where
  rings _ _ h := ring_cutOff.1 h
  ways c h _ _ h' := ⟨((C59_crossings m B c).1 h).1, at_cutOff.1 h'⟩

/-- The hypotheses of C74 on two meshes are met by the notch, with and without the layer that fills it. -/
example (heap : Heap (Ext ℝ)) (hmax : heap.Max) (p p' : Path (Ext ℝ))
    (h : notchMesh.real.path everyIndex heap ⟨false⟩ dartStart dartGoal = .ok (some p))
    (h' : (notchMesh.real.cutOff [1]).path everyIndex heap ⟨false⟩ dartStart dartGoal = .ok (some p')) :
    ∃ l l' : ℝ, p.length = .fin l ∧ p'.length = .fin l' ∧ l ≤ l' :=
  C74_longer everyIndex everyIndex heap heap hmax hmax ⟨false⟩ notchMesh.real (notchMesh.real.cutOff [1])
    (narrower_cutOff _ _) notch_sized (sized_cutOff notch_sized) (conforming_real notch_conforming)
    (conforming_cutOff (conforming_real notch_conforming)) dartStart dartStart dartGoal dartGoal _ _
    (Cfg.plain_default _ _ _) (Cfg.plain_default _ _ _) 0 1
    ⟨rfl, rfl, .inl ⟨by decide, rfl⟩, .inl ⟨by decide, rfl⟩, inPolygon_cutOff.1 notch_setting.src_in,
      inPolygon_cutOff.1 notch_setting.dst_in, cutOff_nil notchMesh.real ▸ notch_navigable_open, notch_noNearMiss⟩
    ⟨rfl, rfl, .inl ⟨by decide, rfl⟩, .inl ⟨by decide, rfl⟩, notch_setting.src_in, notch_setting.dst_in,
      notch_navigable, notch_setting.exact⟩ p p' h h'

/-- The two layers of the notch before they are stitched. -/
def notchLayers : Mesh (Ext ℚ) := Mesh.ofLayers
  [ Layer.mk'
      [ Vertex.new (e2 0 0) [0, 1, u32Max], Vertex.new (e2 16 0) [0, 1, u32Max],
        Vertex.new (e2 32 24) [0, u32Max], Vertex.new (e2 32 (-24)) [1, u32Max] ]
      [ Polygon.new [0, 1, 2] false, Polygon.new [1, 0, 3] false ],
    Layer.mk'
      [ Vertex.new (e2 16 0) [0, u32Max], Vertex.new (e2 32 (-24)) [0, u32Max], Vertex.new (e2 32 24) [0, u32Max] ]
      [ Polygon.new [0, 1, 2] false ] ]

def notchStitches : StitchVertices := [((0, 1), [(1, 0), (3, 1), (2, 2)])]

theorem notchLayers_unstitched : notchLayers.Unstitched where
  layers := by decide
  sized := by unfold Mesh.Sized; decide +kernel
  refs := by decide +kernel
  vertices := by decide +kernel

theorem notchStitches_exist : StitchesExist notchLayers notchStitches := by
  intro e he
  simp only [notchStitches, List.mem_singleton] at he
  subst he
  refine ⟨by decide, fun p hp => ?_⟩
  simp only [List.mem_cons, List.not_mem_nil, or_false] at hp
  rcases hp with rfl | rfl | rfl <;> exact ⟨⟨_, _, rfl, rfl⟩, ⟨_, _, rfl, rfl⟩⟩

/-- Stitching one way, or not at all, gives a narrower mesh than stitching the two layers. -/
example (sorter : Sorter) (hsort : sorter.Ok) (oneWay : Bool) (s' : StitchVertices) (h : s' ⊆ notchStitches) :
    ∃ wide narrow, notchLayers.stitchAtVertices sorter notchStitches false = .ok wide ∧
      notchLayers.stitchAtVertices sorter s' oneWay = .ok narrow ∧ Narrower narrow wide :=
  C74_one_way notchLayers notchLayers_unstitched notchStitches s' h notchStitches_exist oneWay sorter hsort

end Polyanya
