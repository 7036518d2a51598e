import Verif.Props.MergeRegion
import Verif.Props.MergingExamples
import Verif.Proofs.CastMesh
/-
A concrete case for C63.
-/

namespace Polyanya

/-- The number that a rational coordinate stands for. -/
noncomputable def ratVal (q : ℚ) : ℝ := (q : ℝ)

/-- All consecutive corners of a ring. -/
def outlineEdges (cs : List (Vec2 ℚ)) : List (Vec2 ℚ × Vec2 ℚ) := cs.zip (cs.rotate 1)

/-- Is this the outline of a convex polygon, counterclockwise? All corners are compared with all edges. -/
def outlineCheck (cs : List (Vec2 ℚ)) : Bool :=
  (outlineEdges cs).all fun e => cs.all (fun c => decide (0 ≤ tri e.1 e.2 c)) && cs.any (fun c => decide (0 < tri e.1 e.2 c))

theorem consecutive_outlineEdges {cs : List (Vec2 ℚ)} {a b : Vec2 ℚ} (h : Consecutive cs a b) : (a, b) ∈ outlineEdges cs := by
  obtain ⟨i, hi, ha, hb⟩ := h
  refine List.mem_iff_getElem?.2 ⟨i, ?_⟩
  unfold outlineEdges
  rw [List.getElem?_zip_eq_some]
  refine ⟨ha, ?_⟩
  rw [List.getElem?_rotate hi]
  exact hb

theorem outline_of_check {cs : List (Vec2 ℚ)} (h : outlineCheck cs = true) : ConvexOutline (cs.map Vec2.real) := by
  simp only [outlineCheck, List.all_eq_true, Bool.and_eq_true, List.any_eq_true, decide_eq_true_eq] at h
  constructor
  · intro a b hab d hd
    obtain ⟨a, b, hab', rfl, rfl⟩ := consecutive_real.1 hab
    obtain ⟨c, hc, rfl⟩ := List.mem_map.1 hd
    rw [tri_real]
    exact_mod_cast (h _ (consecutive_outlineEdges hab')).1 c hc
  · intro a b hab
    obtain ⟨a, b, hab', rfl, rfl⟩ := consecutive_real.1 hab
    obtain ⟨c, hc, h0⟩ := (h _ (consecutive_outlineEdges hab')).2
    refine ⟨c.real, List.mem_map_of_mem hc, ?_⟩
    rw [tri_real]
    exact_mod_cast h0

/-- A convexity test that keeps the promise of the documentation of `geo::IsConvex`. -/
def wholeGeo : Geo Rat where
  area := ratArea
  ccwConvex cs := decide cs.Nodup && outlineCheck cs

theorem wholeGeo_accepts : wholeGeo.AcceptsConvexOnly ratVal := by
  intro cs h
  simp only [wholeGeo, Bool.and_eq_true, decide_eq_true_eq] at h
  exact ⟨h.1, outline_of_check h.2⟩

/-- The corners of a polygon of a layer with rational coordinates. -/
def ratOutline (l : Layer Rat) (p : Polygon) : List (Vec2 ℚ) :=
  p.vertices.map fun v => ((l.vertices[v.toNat]?).map (·.coords)).getD ⟨0, 0⟩

theorem outline_rat (l : Layer Rat) (p : Polygon) : l.outline ratVal p = (ratOutline l p).map Vec2.real := by
  unfold Layer.outline ratOutline
  rw [List.map_map]
  refine List.map_congr_left fun v _ => ?_
  simp only [Layer.place, Function.comp_apply]
  cases l.vertices[v.toNat]? with
  | none => simp [Vec2.real]
  | some vx => rfl

theorem cutSquare_convex : ∀ p ∈ cutSquare.polygons, ConvexOutline (cutSquare.outline ratVal p) := by
  have key : cutSquare.polygons.all (fun p => outlineCheck (ratOutline cutSquare p)) = true := by decide +kernel
  intro p hp
  rw [outline_rat]
  exact outline_of_check (List.all_eq_true.1 key p hp)

/-- Non-vacuity of C63: the four triangles of the square become two, which cover the same points. -/
theorem C63_example : ∃ l', cutSquare.mergePolygons wholeGeo = .ok (l', true) ∧ l'.polygons.length = 2 ∧
    ∀ x, l'.Walkable ratVal x ↔ cutSquare.Walkable ratVal x := by
  have key : (match cutSquare.mergePolygons wholeGeo with
    | .ok (l, b) => b && decide (l.polygons = [Polygon.new [4, 0, 1, 2] false, Polygon.new [4, 2, 3, 0] false])
    | .error _ => false) = true := by decide +kernel
  cases h : cutSquare.mergePolygons wholeGeo with
  | error e => rw [h] at key; simp at key
  | ok r =>
    obtain ⟨l', b⟩ := r
    rw [h] at key
    simp only [Bool.and_eq_true, decide_eq_true_eq] at key
    obtain ⟨rfl, hp⟩ := key
    exact ⟨l', rfl, by rw [hp]; rfl, (C63_region ratVal wholeGeo wholeGeo_accepts cutSquare l' true
      cutSquare_consistent cutSquare_conforming cutSquare_convex h).1⟩

end Polyanya
