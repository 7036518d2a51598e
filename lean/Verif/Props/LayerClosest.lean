import Verif.Props.Geometry
import Verif.Proofs.Safe
/-
C60: the closest point methods of a single layer.
-/

namespace Polyanya

variable {K : Type} [Scalar K]

/-- **C60**. If `Layer::get_closest_point` returns a point, it is the first sample, in the order of the rings
`0..=steps`, that lies in a polygon of the layer. -/
theorem C60_closest (bvh : Bvh K) (l : Layer K) (pt c : Vec2 K) (delta : K) (steps : Nat)
    (h : l.getClosestPoint bvh pt delta steps = .ok (some c)) :
    ∃ (step i k : Nat) (p : Polygon), step ≤ steps ∧ i ≤ 10 * step ∧ c = ringSample pt delta step i ∧
      l.polygons[k]? = some p ∧ l.pointInPolygon c p = .ok true ∧
      (∀ i' < i, l.locate bvh (ringSample pt delta step i') = .ok u32Max) ∧
      ∀ step' < step, ∀ i', i' ≤ 10 * step' → l.locate bvh (ringSample pt delta step' i') = .ok u32Max := by
  obtain ⟨l1, step, l2, hr, hi, hb⟩ := findFirst_some h
  obtain ⟨hlt, hk⟩ := range_split hr
  simp only [bind_eq_ok, Except.ok.injEq, Option.map_eq_some_iff, Option.map_eq_none_iff] at hi hb
  obtain ⟨_, hi, ⟨np, r⟩, rfl, rfl⟩ := hi
  obtain ⟨i, hi10, rfl, hloc, hne, hprev⟩ := closestInner_first hi
  obtain ⟨k, p, hkp, rfl, hin⟩ := locate_found hloc hne
  refine ⟨step, i, k, p, by omega, hi10, rfl, hkp, hin, hprev, fun step' hs => ?_⟩
  obtain ⟨_, hn, rfl⟩ := hb step' ((hk step').1 hs)
  exact closestInner_none hn

/-- **C60**. If it returns `None`, no sample of any ring lies in the layer. -/
theorem C60_closest_none (bvh : Bvh K) (l : Layer K) (pt : Vec2 K) (delta : K) (steps : Nat)
    (h : l.getClosestPoint bvh pt delta steps = .ok none) :
    ∀ step ≤ steps, ∀ i, i ≤ 10 * step → l.locate bvh (ringSample pt delta step i) = .ok u32Max := by
  intro step hs
  unfold Layer.getClosestPoint at h
  rw [findFirst_none] at h
  have := h step (by simp; omega)
  simp only [bind_eq_ok, Except.ok.injEq, Option.map_eq_none_iff] at this
  obtain ⟨_, hn, rfl⟩ := this
  exact closestInner_none hn

/-- **C60**. If `Layer::get_closest_point_towards` returns a point, it is the first of the points
`pt + step * delta * direction` (`step < steps`) that lies in a polygon of the layer. -/
theorem C60_towards (bvh : Bvh K) (l : Layer K) (pt c t : Vec2 K) (delta : K) (steps : Nat)
    (h : l.getClosestPointTowards bvh pt delta steps t = .ok (some c)) :
    ∃ (step k : Nat) (p : Polygon), step < steps ∧ c = pt + ((directionTo pt t).smul delta).smul (Scalar.ofNat step) ∧
      l.polygons[k]? = some p ∧ l.pointInPolygon c p = .ok true ∧
      ∀ step' < step, l.locate bvh (pt + ((directionTo pt t).smul delta).smul (Scalar.ofNat step')) = .ok u32Max := by
  obtain ⟨l1, step, l2, hr, hi, hb⟩ := findFirst_some h
  obtain ⟨hlt, hk⟩ := range_split hr
  simp only [bind_eq_ok, Except.ok.injEq, Option.map_eq_some_iff, Option.map_eq_none_iff] at hi hb
  obtain ⟨_, hi, ⟨np, r⟩, rfl, rfl⟩ := hi
  obtain ⟨rfl, hloc, hne⟩ := towardsInner_some hi
  obtain ⟨k, p, hkp, rfl, hin⟩ := locate_found hloc hne
  refine ⟨step, k, p, by omega, rfl, hkp, hin, fun step' hs => ?_⟩
  obtain ⟨_, hn, rfl⟩ := hb step' ((hk step').1 hs)
  exact towardsInner_none hn

/-- **C60**. If it returns `None`, none of these points lies in the layer. -/
theorem C60_towards_none (bvh : Bvh K) (l : Layer K) (pt t : Vec2 K) (delta : K) (steps : Nat)
    (h : l.getClosestPointTowards bvh pt delta steps t = .ok none) :
    ∀ step < steps, l.locate bvh (pt + ((directionTo pt t).smul delta).smul (Scalar.ofNat step)) = .ok u32Max := by
  intro step hs
  unfold Layer.getClosestPointTowards at h
  rw [findFirst_none] at h
  have := h step (by simpa using hs)
  simp only [bind_eq_ok, Except.ok.injEq, Option.map_eq_none_iff] at this
  obtain ⟨_, hn, rfl⟩ := this
  exact towardsInner_none hn

/-- **C60**. On a layer whose references are in range both methods return, without panic. -/
theorem C60_total (bvh : Bvh K) (hb : bvh.InRange) (l : Layer K) (hl : l.Findable) (pt t : Vec2 K) (delta : K)
    (steps : Nat) : (∃ r, l.getClosestPoint bvh pt delta steps = .ok r) ∧
    ∃ r, l.getClosestPointTowards bvh pt delta steps t = .ok r := by
  constructor
  · refine (safe_findFirst _ (fun _ _ => ?_)).ex
    refine safe_bind ?_ (fun _ _ => safe_ok _)
    unfold Layer.closestInner
    refine safe_findFirst _ (fun _ _ => ?_)
    exact safe_bind (safe_locate hb hl _) (fun _ _ => safe_ok _)
  · refine (safe_findFirst _ (fun _ _ => ?_)).ex
    refine safe_bind ?_ (fun _ _ => safe_ok _)
    unfold Layer.towardsInner
    exact safe_bind (safe_locate hb hl _) (fun _ _ => safe_ok _)

/-- **C60**, exact arithmetic: a point returned by `Layer::get_closest_point` is at distance exactly `step * delta`
from the query, where `step ≤ steps` is the number of the first ring that has a sample in the layer. -/
theorem C60_distance (bvh : Bvh ℝ) (l : Layer ℝ) (pt c : Vec2 ℝ) (delta : ℝ) (steps : Nat) (hd : 0 ≤ delta)
    (h : l.getClosestPoint bvh pt delta steps = .ok (some c)) :
    ∃ step ≤ steps, dist2 pt c = step * delta ∧
      ∀ step' < step, ∀ i, i ≤ 10 * step' → l.locate bvh (ringSample pt delta step' i) = .ok u32Max := by
  obtain ⟨step, i, k, p, h1, -, rfl, -, -, -, h2⟩ := C60_closest bvh l pt c delta steps h
  refine ⟨step, h1, ?_, h2⟩
  have := ringSample_dist pt ⟨0, 0⟩ delta hd step i
  have e : pt - (⟨0, 0⟩ : Vec2 ℝ) = pt := by apply Vec2.ext' <;> simp
  rw [e] at this
  rw [← this]
  congr 1
  apply Vec2.ext' <;> simp

/-- **C60**, exact arithmetic: a point in the layer is returned unchanged. -/
theorem C60_inside_unchanged (bvh : Bvh ℝ) (l : Layer ℝ) (pt : Vec2 ℝ) (delta : ℝ) (steps : Nat)
    (r : Option (Vec2 ℝ)) (h : l.getClosestPoint bvh pt delta steps = .ok r) {id : UInt32}
    (hin : l.locate bvh pt = .ok id) (hne : id ≠ u32Max) : r = some pt := by
  have key : l.locate bvh (ringSample pt delta 0 0) ≠ .ok u32Max := by
    rw [ringSample_zero, hin]
    intro hc
    exact hne (by simpa using hc)
  cases r with
  | none => exact absurd (C60_closest_none bvh l pt delta steps h 0 (by omega) 0 (by omega)) key
  | some c =>
    obtain ⟨step, i, k, p, -, -, rfl, -, -, -, h2⟩ := C60_closest bvh l pt c delta steps h
    have hz : step = 0 := by
      by_contra hz
      exact key (h2 0 (by omega) 0 (by omega))
    subst hz
    rw [ringSample_zero]

/-- The mesh methods are the layer methods, for a layer that is asked for by number, except that the mesh searches
one ring less. -/
theorem C60_mesh (bvh : Bvh K) (m : Mesh K) (pt c : Vec2 K) (j : UInt8) (l : Layer K)
    (hl : m.layers[j.toNat]? = some l) (n : Nat) (hn : m.searchSteps = n + 1)
    (h : l.getClosestPoint bvh (pt - l.offset) m.searchDelta n = .ok (some c)) :
    ∃ id, m.getClosestPoint bvh ⟨pt, some j, u32Max⟩ = .ok (some ⟨c + l.offset, some j, packId j id⟩) := by
  obtain ⟨l1, step, l2, hr, hi, hb⟩ := findFirst_some h
  simp only [bind_eq_ok, Except.ok.injEq, Option.map_eq_some_iff, Option.map_eq_none_iff] at hi hb
  obtain ⟨_, hi, ⟨np, r⟩, rfl, rfl⟩ := hi
  refine ⟨r, ?_⟩
  unfold Mesh.getClosestPoint Mesh.closestLoop
  simp only [idx_eq_ok.2 hl, res_bind_ok]
  rw [hn, hr]
  clear hr h
  induction l1 with
  | nil => simp [findFirst, closestInLayer, hi]
  | cons a l1 ih =>
    obtain ⟨_, h1, rfl⟩ := hb a (by simp)
    simp only [List.cons_append, findFirst, closestInLayer, h1, res_bind_ok, Option.map_none]
    exact ih (fun x hx => hb x (by simp [hx]))

/-- Non-vacuity: one ring more than the mesh method. A point beside the mesh that only the last ring reaches. -/
example : exLayer.getClosestPointTowards allBvh (v2 (41/20) (1/2)) (1/10) 2 (v2 0 (1/2)) = .ok (some (v2 (39/20) (1/2)))
    ∧ exLayer.getClosestPointTowards allBvh (v2 (41/20) (1/2)) (1/10) 1 (v2 0 (1/2)) = .ok none
    ∧ resIs (exLayer.getClosestPoint allBvh (v2 (-1/20) (1/2)) (1/10) 1) (fun o => o.isSome)
    ∧ exLayer.getClosestPoint allBvh (v2 (-1/20) (1/2)) (1/10) 0 = .ok none := by decide +kernel

end Polyanya
