import Verif.Props.OuterEdge
import Verif.Spec.RatScalar
/-
Concrete cases for C32-C34 and C52, and the counterexample to C33.
-/

namespace Polyanya

/-- Does the horizontal ray from `c` to the right cross the segment? -/
def crossesRay (c a b : Vec2 Rat) : Bool :=
  (decide (a.y ≤ c.y) != decide (b.y ≤ c.y)) &&
    decide (c.x < a.x + (c.y - a.y) * (b.x - a.x) / (b.y - a.y))

/-- Point in ring, by counting crossings. -/
def inRing (r : LineString Rat) (c : Vec2 Rat) : Bool :=
  ((windows2 r).filter (fun e => crossesRay c e.1 e.2)).length % 2 == 1

/-- The square `[0,4]x[0,4]`, cut along a diagonal; face 0 is the outside. -/
def squareTri : TriData Rat where
  faceCount := 3
  inner := [⟨1, (0, 1, 2), v2 (8/3) (4/3)⟩, ⟨2, (0, 2, 3), v2 (4/3) (8/3)⟩]
  vertices := [⟨v2 0 0, [1, 2, 0]⟩, ⟨v2 4 0, [1, 0]⟩, ⟨v2 4 4, [2, 1, 0]⟩, ⟨v2 0 4, [2, 0]⟩]

theorem squareTri_consistent : squareTri.Consistent := by
  refine ⟨by decide, by decide, by decide, by decide, ?_, by decide, ?_, by decide⟩
  · have : ∀ f ∈ squareTri.inner, f.corners.1 < 4 ∧ f.corners.2.1 < 4 ∧ f.corners.2.2 < 4 := by decide
    intro f hf v hv
    have := this f hf
    show v < 4
    rcases hv with rfl | rfl | rfl
    · exact this.1
    · exact this.2.1
    · exact this.2.2
  · intro v tv hv f hf
    have hlt : v < 4 := lt_of_getElem? hv
    have : ∀ v ∈ List.range 4, ∀ tv ∈ squareTri.vertices[v]?, ∀ f ∈ squareTri.inner,
        (f.index ∈ tv.faces ↔ (v = f.corners.1 ∨ v = f.corners.2.1 ∨ v = f.corners.2.2)) := by decide
    exact this v (List.mem_range.2 hlt) tv hv f hf

def squareEdges : List (Vec2 Rat) := [v2 0 0, v2 4 0, v2 4 4, v2 0 4]

/-- The constraints for the square alone. -/
def squareLog : Cdt Rat :=
  [.insert (v2 0 0), .insert (v2 4 0), .constrain 0 1, .insert (v2 4 0), .insert (v2 4 4), .constrain 2 3,
   .insert (v2 4 4), .insert (v2 0 4), .constrain 4 5, .insert (v2 0 4), .insert (v2 0 0), .constrain 6 7]

/-- The constraints for one half of the square as an obstacle. -/
def halfLog : Cdt Rat :=
  [.insert (v2 0 0), .insert (v2 4 0), .constrain 8 9, .insert (v2 4 0), .insert (v2 4 4), .constrain 10 11,
   .insert (v2 4 4), .insert (v2 0 0), .constrain 12 13]

/-- A library that knows two triangulations. -/
def squareLib : TriLib Rat where
  contains p c := inRing p.exterior c && p.interiors.all (fun h => !inRing h c)
  simplifyVw r _ := r
  union a _ := [a]
  insertOk _ := true
  triangulate log := if log = squareLog ∨ log = squareLog ++ halfLog then .ok squareTri else .error .panic

theorem squareLib_nan : squareLib.RefusesNan := by
  intro p _
  simp [Vec2.beq, Scalar.eq]

theorem squareLib_holes : squareLib.HolesExcluded := by
  intro p c h hole hh
  simp only [squareLib, Bool.and_eq_true, List.all_eq_true] at h ⊢
  have := h.2 hole hh
  simp only [Bool.not_eq_true'] at this
  simp [this]

theorem squareLib_exterior : squareLib.ExteriorRespected := by
  intro p c h
  simp only [squareLib, Bool.and_eq_true] at h ⊢
  simp [h.1]

theorem rat_zeroIsSmall : ZeroIsSmall Rat := by
  unfold ZeroIsSmall
  decide +kernel

/-- One half of the square as an obstacle. -/
def half : List (Vec2 Rat) := [v2 0 0, v2 4 0, v2 4 4]

/-- A small obstacle inside one triangle, away from its center. -/
def small : List (Vec2 Rat) := [v2 2 (1/4), v2 3 (1/4), v2 3 (3/4)]

/-- The builder with half of the square as an obstacle: only the other half is left. -/
theorem half_layer : ∃ t' l, runOps squareLib (Triangulation.fromOuterEdges squareEdges) [.addObstacle half] = .ok t' ∧
    t'.asLayer squareLib allBvh = .ok l ∧ l.polygons = [⟨[0, 2, 3], false⟩] ∧
    l.vertices = [⟨v2 0 0, [0, u32Max], true⟩, ⟨v2 4 0, [u32Max], true⟩, ⟨v2 4 4, [0, u32Max], true⟩,
      ⟨v2 0 4, [0, u32Max], true⟩] := by
  obtain ⟨t', ht'⟩ : ∃ t', t' = (Triangulation.fromOuterEdges squareEdges).addObstacle half := ⟨_, rfl⟩
  have h : resIs (((Triangulation.fromOuterEdges squareEdges).addObstacle half).asLayer squareLib allBvh) (fun l =>
      decide (l.polygons = [⟨[0, 2, 3], false⟩]) && decide (l.vertices = [⟨v2 0 0, [0, u32Max], true⟩, ⟨v2 4 0, [u32Max], true⟩,
        ⟨v2 4 4, [0, u32Max], true⟩, ⟨v2 0 4, [0, u32Max], true⟩])) = true := by decide +kernel
  obtain ⟨l, h1, h2⟩ := of_resIs h
  rw [Bool.and_eq_true, decide_eq_true_eq, decide_eq_true_eq] at h2
  exact ⟨_, l, rfl, h1, h2.1, h2.2⟩

/-- The hypotheses of `C33_obstacles_partial`, `C33_area_partial` and `C52_outer_edge` hold for it. -/
example : ∃ cdt kept l, FacesOf squareLib l cdt kept ∧ l.polygons = [⟨[0, 2, 3], false⟩] ∧
    ∃ outline, BecomesOutline squareLib false [BuildOp.addObstacle half] [] (LineString.close half) outline ∧
      outline = [v2 0 0, v2 4 0, v2 4 4, v2 0 0] ∧ (∀ f ∈ kept, squareLib.contains ⟨outline, []⟩ f.center = false) ∧
      ∀ a b, (a, b) ∈ outline.zip outline.tail → Constrained cdt a b := by
  obtain ⟨t', l, h1, h2, h3, -⟩ := half_layer
  obtain ⟨cdt, kept, k1, k2⟩ := C33_obstacles_partial rat_zeroIsSmall squareLib squareLib_nan squareLib_holes allBvh _ t'
    (.outerEdges squareEdges) _ h1 l h2
  obtain ⟨outline, k3, k4, k5⟩ := k2 ([] ++ [.addObstacle half]) [] half (.added rfl (.inl rfl))
  refine ⟨cdt, kept, l, k1, h3, outline, k3, ?_, k4, k5 (.inr (by simp))⟩
  simp only [List.nil_append, BecomesOutline, Grown] at k3
  have hs : (Scalar.lit 1 5 <. (lastSettings [BuildOp.addObstacle half] : Settings Rat).radius) = false := by decide +kernel
  rw [hs] at k3
  simp only [Bool.false_eq_true, if_false] at k3
  rw [k3]
  decide +kernel

/-- **C33** is false without the condition on `prebuild`: an obstacle is added, then `prebuild` is called twice. The layer
still covers the obstacle, since its edges are not constraints of the triangulation any more: only those of the outer edge
are. (`squareTri` is a consistent triangulation of the square, the only one up to the choice of the diagonal.) -/
theorem C33_false : squareLib.RefusesNan ∧ squareLib.HolesExcluded ∧ squareTri.Consistent ∧
    ∃ t' l p, runOps squareLib (Triangulation.fromOuterEdges squareEdges) [.addObstacle small, .prebuild, .prebuild] = .ok t' ∧
      t'.constraints squareLib = .ok (⟨LineString.close squareEdges, []⟩, squareLog) ∧
      squareLib.triangulate squareLog = .ok squareTri ∧ t'.asLayer squareLib allBvh = .ok l ∧
      squareLib.contains ⟨LineString.close small, []⟩ p = true ∧
      l.getPointLocation allBvh p (Scalar.lit 0 0) = .ok (some 0) := by
  refine ⟨squareLib_nan, squareLib_holes, squareTri_consistent, ?_⟩
  have h1 : resIs (runOps squareLib (Triangulation.fromOuterEdges squareEdges) [.addObstacle small, .prebuild, .prebuild])
      (fun t' => resIs (t'.constraints squareLib) (fun ic =>
          decide (ic.1.exterior = LineString.close squareEdges) && decide (ic.1.interiors = []) && decide (ic.2 = squareLog)) &&
        resIs (t'.asLayer squareLib allBvh) (fun l =>
          decide (l.getPointLocation allBvh (v2 (14/5) (1/2)) (Scalar.lit 0 0) = .ok (some 0)))) = true := by decide +kernel
  obtain ⟨t', e1, h2⟩ := of_resIs h1
  rw [Bool.and_eq_true] at h2
  obtain ⟨⟨inner, log⟩, e2, h3⟩ := of_resIs h2.1
  obtain ⟨l, e3, h4⟩ := of_resIs h2.2
  rw [decide_eq_true_eq] at h4
  simp only [Bool.and_eq_true, decide_eq_true_eq] at h3
  obtain ⟨⟨h5, h6⟩, h7⟩ := h3
  refine ⟨t', l, v2 (14/5) (1/2), e1, ?_, ?_, e3, by decide +kernel, h4⟩
  · rw [e2, h7]
    cases inner
    simp only at h5 h6
    rw [h5, h6]
  · simp [squareLib]

/-- With one call to `prebuild`, the obstacle is not lost: this library does not know the triangulation asked for, which has
the edges of the obstacle among its constraints. -/
example : resIs (runOps squareLib (Triangulation.fromOuterEdges squareEdges) [.addObstacle small, .prebuild])
    (fun t' => resIs (t'.constraints squareLib) (fun ic => decide (squareLog <+: ic.2) && decide (ic.2.length = 21))) = true := by
  decide +kernel

/-- All faces retained. -/
example : ∃ kept l, squareTri.toLayer (fun _ => .ok true) = .ok l ∧ kept.Sublist squareTri.inner ∧
    (∀ f, f ∈ kept ↔ f ∈ squareTri.inner ∧ (.ok true : Res Bool) = .ok true) ∧ MadeFrom squareTri kept l :=
  C34_layer squareTri squareTri_consistent (fun _ => .ok true) (fun _ _ => ⟨true, rfl⟩)

end Polyanya
