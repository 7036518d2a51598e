import Verif.Props.Walkable
import Verif.Props.Small
import Verif.Proofs.ConformingCheck
/-
A concrete mesh that meets the hypotheses of C53, and one where paths leave the mesh.
-/

namespace Polyanya

theorem everyIndex_complete {K : Type} [Scalar K] : (everyIndex : Bvh K).Complete where
  inRange boxes pt i hi := by simpa [everyIndex] using hi
  complete boxes pt i b hb _ := by
    simpa [everyIndex] using (List.getElem?_eq_some_iff.1 hb).1

instance {F : Type} [Scalar F] [TotalCmpLaws F] : TotalCmpLaws (Ext F) where
  refl a := by
    cases a
    · exact TotalCmpLaws.refl (K := F) _
    all_goals simp [Scalar.totalCmp, Ext.totalCmp]
  swap a b := by
    cases a <;> cases b
    · exact TotalCmpLaws.swap (K := F) _ _
    all_goals simp only [Scalar.totalCmp, Ext.totalCmp]
    all_goals first | rfl | (split <;> rfl) | (split <;> split <;> simp_all) | skip
  trans a b c := by
    cases a <;> cases b <;> cases c
    · exact TotalCmpLaws.trans (K := F) _ _ _
    all_goals simp only [Scalar.totalCmp, Ext.totalCmp]
    all_goals grind
  eq_left a b c h := by
    cases a <;> cases b <;> cases c
    · exact TotalCmpLaws.eq_left (K := F) _ _ _ h
    all_goals simp only [Scalar.totalCmp, Ext.totalCmp] at h ⊢
    all_goals grind

/-- The heap of the examples respects the contract of heaps. -/
theorem extHeap_max : (maxHeap : Heap (Ext ℚ)).Max := maxHeap_max

/-- The point with these rational coordinates. -/
def e2 (x y : ℚ) : Vec2 (Ext ℚ) := (⟨x, y⟩ : Vec2 ℚ).fin

/-- An L-shaped layer of three squares of side `c` around the obstacle corner `(c, c)`. -/
def lLayer (c : ℚ) : Layer (Ext ℚ) := Layer.mk'
  [ Vertex.new (e2 0 0) [0, u32Max], Vertex.new (e2 c 0) [0, 1, u32Max],
    Vertex.new (e2 (2 * c) 0) [1, u32Max], Vertex.new (e2 0 c) [0, 2, u32Max],
    Vertex.new (e2 c c) [0, 1, 2, u32Max], Vertex.new (e2 (2 * c) c) [1, u32Max],
    Vertex.new (e2 0 (2 * c)) [2, u32Max], Vertex.new (e2 c (2 * c)) [2, u32Max] ]
  [ Polygon.new [0, 1, 4, 3] false, Polygon.new [1, 2, 5, 4] false, Polygon.new [3, 4, 7, 6] false ]

def lMesh (c : ℚ) : Mesh (Ext ℚ) := Mesh.ofLayers [(lLayer c).bakePolygonFinder]

/-- With squares of side 8, the path from (12, 4) to (6, 12) bends at (8, 8). -/
theorem lMesh_path : resIs ((lMesh 8).pathOnLayers everyIndex maxHeap ⟨false⟩ (Coords.onMesh (e2 12 4))
    (Coords.onMesh (e2 6 12)) []) (fun r => r.any (fun p => p.path = [e2 8 8, e2 6 12])) = true := by
  decide +kernel

theorem lMesh_conforming : Conforming (lMesh 8) := conforms_of_check (by decide +kernel)

theorem lMesh_searchable (c : ℚ) : (lMesh c).Searchable where
  layers := by simp [lMesh, Mesh.ofLayers]
  layer := by
    intro l hl
    simp only [lMesh, Mesh.ofLayers, List.mem_singleton] at hl
    subst hl
    refine ⟨⟨?_, ?_, ?_⟩, ?_⟩
    · simp [lLayer, Layer.mk', Layer.bakePolygonFinder]
    · intro p hp
      simp only [lLayer, Layer.mk', Layer.bakePolygonFinder, List.mem_cons, List.not_mem_nil, or_false] at hp
      rcases hp with rfl | rfl | rfl <;> simp [Polygon.new]
    · intro boxes hb
      simp only [Layer.bakePolygonFinder, Option.some.injEq] at hb
      subst hb
      simp [Layer.bakePolygonFinder]
    · intro boxes hb
      simp only [Layer.bakePolygonFinder, Option.some.injEq] at hb
      subst hb
      rfl

/-- Is the point on the grid of step 2 with 8 × 8 cells? -/
def onGrid8 (v : Vec2 ℚ) : Bool :=
  (List.range 9).any fun i => (List.range 9).any fun j => decide (v = ⟨0 + 2 * i, 0 + 2 * j⟩)

theorem onGrid8_spec {v : Vec2 ℚ} (h : onGrid8 v = true) : OnGrid (⟨0, 0⟩ : Vec2 ℚ) 2 8 v := by
  unfold onGrid8 at h
  simp only [List.any_eq_true, List.mem_range, decide_eq_true_iff] at h
  obtain ⟨i, hi, j, hj, rfl⟩ := h
  exact ⟨i, j, by omega, by omega, rfl⟩

theorem lMesh_grid : GridMesh (lMesh 8) ⟨12, 4⟩ ⟨6, 12⟩ ⟨0, 0⟩ 2 8 where
  pos := by norm_num
  few := by norm_num
  coarse := by norm_num
  large := by norm_num
  vertices v hv := onGrid8_spec (vertices_of_check (by decide +kernel) hv)
  start := onGrid8_spec (by decide +kernel)
  goal := onGrid8_spec (by decide +kernel)

theorem lMesh_start : PointOfMesh (lMesh 8) (Coords.onMesh (e2 12 4)) ⟨12, 4⟩ where
  pos := rfl
  free := rfl
  inside := ⟨0, by simp [Allowed, Coords.onMesh], 1, by decide, inPolygon_of_check (by decide +kernel)⟩

theorem lMesh_goal : PointOfMesh (lMesh 8) (Coords.onMesh (e2 6 12)) ⟨6, 12⟩ where
  pos := rfl
  free := rfl
  inside := ⟨0, by simp [Allowed, Coords.onMesh], 2, by decide, inPolygon_of_check (by decide +kernel)⟩

/-- The hypotheses of C53 are met by a query that bends around a corner. -/
example : Walkable (lMesh 8) ⟨12, 4⟩ [⟨8, 8⟩, ⟨6, 12⟩] := by
  obtain ⟨r, hr, hp⟩ := of_resIs lMesh_path
  cases r with
  | none => simp at hp
  | some p =>
    simp only [Option.any_some, decide_eq_true_iff] at hp
    obtain ⟨ws, h1, -, h3⟩ := C53_grid everyIndex everyIndex_complete maxHeap ⟨false⟩ (lMesh 8)
      (lMesh_searchable 8) lMesh_conforming (1 / 10) (by decide +kernel) _ _ _ _ lMesh_start lMesh_goal
      _ _ _ lMesh_grid [] p hr
    rw [hp] at h1
    cases ws with
    | nil => simp at h1
    | cons a ws =>
      cases ws with
      | nil => simp at h1
      | cons b ws =>
        cases ws with
        | cons _ _ => simp at h1
        | nil =>
          simp only [List.map_cons, List.map_nil, List.cons.injEq, and_true] at h1
          rw [← Vec2.fin_injective h1.1, ← Vec2.fin_injective h1.2] at h3
          exact h3

/-! ### Without the hypothesis on the tolerances -/

theorem tiny_path : resIs ((lMesh (1 / 40)).pathOnLayers everyIndex maxHeap ⟨false⟩
    (Coords.onMesh (e2 (3 / 80) (1 / 80))) (Coords.onMesh (e2 (3 / 160) (3 / 80))) [])
    (fun r => r.any (fun p => p.path = [e2 (3 / 160) (3 / 80)])) = true := by
  decide +kernel

theorem tiny_start : PointOfMesh (lMesh (1 / 40)) (Coords.onMesh (e2 (3 / 80) (1 / 80))) ⟨3 / 80, 1 / 80⟩ where
  pos := rfl
  free := rfl
  inside := ⟨0, by simp [Allowed, Coords.onMesh], 1, by decide, inPolygon_of_check (by decide +kernel)⟩

theorem tiny_goal :
    PointOfMesh (lMesh (1 / 40)) (Coords.onMesh (e2 (3 / 160) (3 / 80))) ⟨3 / 160, 3 / 80⟩ where
  pos := rfl
  free := rfl
  inside := ⟨0, by simp [Allowed, Coords.onMesh], 2, by decide, inPolygon_of_check (by decide +kernel)⟩

/-- Without a hypothesis that keeps the tolerances out of play, C53 is false, even in exact arithmetic: in an
L-shaped mesh of squares of side 1/40, a path between two points of the mesh cuts the corner. -/
theorem C53_false : ∃ (m : Mesh (Ext ℚ)) (src dst : Coords (Ext ℚ)) (start goal : Vec2 ℚ)
    (p : Path (Ext ℚ)) (ws : List (Vec2 ℚ)), m.Searchable ∧ Conforming m ∧ PointOfMesh m src start ∧
    PointOfMesh m dst goal ∧ m.pathOnLayers everyIndex maxHeap ⟨false⟩ src dst [] = .ok (some p) ∧
    p.path = ws.map Vec2.fin ∧ ¬ Walkable m start ws := by
  obtain ⟨r, hr, hp⟩ := of_resIs tiny_path
  cases r with
  | none => simp at hp
  | some p =>
    simp only [Option.any_some, decide_eq_true_iff] at hp
    refine ⟨lMesh (1 / 40), _, _, _, _, p, [⟨3 / 160, 3 / 80⟩], lMesh_searchable _,
      conforms_of_check (by decide +kernel), tiny_start, tiny_goal, hr, hp, ?_⟩
    intro hw
    obtain ⟨id, hin⟩ := hw (⟨3 / 80, 1 / 80⟩, ⟨3 / 160, 3 / 80⟩) (by simp [Legs]) ⟨21 / 800, 22 / 800⟩
      ⟨3 / 5, by norm_num, by norm_num, by simp only [along]; norm_num⟩
    have hid : id = 0 ∨ id = 1 ∨ id = 2 := by
      obtain ⟨ps, ⟨l, q, ⟨hl, hq⟩, -⟩, -⟩ := hin
      have h0 : idLayer id = 0 := by
        have := (List.getElem?_eq_some_iff.1 hl).1
        simp [lMesh, Mesh.ofLayers] at this
        exact this
      rw [h0] at hl
      have hl' : (lLayer (1 / 40)).bakePolygonFinder = l := by simpa [lMesh, Mesh.ofLayers] using hl
      subst hl'
      have h1 : idPolygon id < 3 := by
        have := (List.getElem?_eq_some_iff.1 hq).1
        simpa [lLayer, Layer.mk', Layer.bakePolygonFinder] using this
      unfold idLayer at h0
      unfold idPolygon at h1
      have h2 : id.toNat < 3 := by omega
      rcases (by omega : id.toNat = 0 ∨ id.toNat = 1 ∨ id.toNat = 2) with h | h | h
      · exact .inl (UInt32.toNat_inj.1 h)
      · exact .inr (.inl (UInt32.toNat_inj.1 h))
      · exact .inr (.inr (UInt32.toNat_inj.1 h))
    rcases hid with rfl | rfl | rfl
    · obtain ⟨ps, hps⟩ : ∃ ps, ringOf (lMesh (1 / 40)) 0 = some ps :=
        Option.isSome_iff_exists.1 (by decide +kernel)
      exact absurd ((inPolygon_iff_check hps).1 hin) (by decide +kernel)
    · obtain ⟨ps, hps⟩ : ∃ ps, ringOf (lMesh (1 / 40)) 1 = some ps :=
        Option.isSome_iff_exists.1 (by decide +kernel)
      exact absurd ((inPolygon_iff_check hps).1 hin) (by decide +kernel)
    · obtain ⟨ps, hps⟩ : ∃ ps, ringOf (lMesh (1 / 40)) 2 = some ps :=
        Option.isSome_iff_exists.1 (by decide +kernel)
      exact absurd ((inPolygon_iff_check hps).1 hin) (by decide +kernel)

end Polyanya
