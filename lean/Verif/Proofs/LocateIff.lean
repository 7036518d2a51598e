import Verif.Proofs.Locate
import Verif.Spec.WellFormed
import Mathlib.Data.Nat.Basic
/-
When point location in a layer succeeds.
-/

namespace Polyanya

variable {K : Type} [Scalar K]

/-! ### The lookups -/

/-- `point_in_polygon` answers on every non-empty polygon. -/
theorem pointInPolygon_answers (l : Layer K) (pt : Vec2 K) (p : Polygon) (hne : p.vertices ≠ []) :
    ∃ b, l.pointInPolygon pt p = .ok b := by
  have hes : ∃ es, p.edgesIndex = .ok es := by
    unfold Polygon.edgesIndex
    split
    · rename_i h; exact absurd h hne
    · exact ⟨_, rfl⟩
  obtain ⟨es, hes⟩ := hes
  unfold Layer.pointInPolygon
  rw [hes, res_bind_ok]
  clear hes
  induction es with
  | nil => exact ⟨true, rfl⟩
  | cons e es ih =>
    unfold Layer.pointInEdges
    split
    · exact ⟨false, rfl⟩
    · rename_i hm
      have hm := Nat.lt_of_not_le hm
      have h1 : e.1.toNat < l.vertices.length := by
        refine lt_of_le_of_lt ?_ hm
        have : e.1 ≤ max e.1 e.2 := by
          rw [UInt32.max_def]; split
          · assumption
          · exact UInt32.le_refl _
        exact UInt32.le_iff_toNat_le.1 this
      have h2 : e.2.toNat < l.vertices.length := by
        refine lt_of_le_of_lt ?_ hm
        have : e.2 ≤ max e.1 e.2 := by
          rw [UInt32.max_def]; split
          · exact UInt32.le_refl _
          · rename_i h
            exact (UInt32.le_total e.1 e.2).resolve_left h
        exact UInt32.le_iff_toNat_le.1 this
      rw [idxUnchecked_eq_ok.2 (List.getElem?_eq_getElem h1), res_bind_ok,
        idxUnchecked_eq_ok.2 (List.getElem?_eq_getElem h2), res_bind_ok]
      simp only
      split
      · exact ⟨true, rfl⟩
      · split
        · exact ⟨false, rfl⟩
        · exact ih

/-- Some polygon of the layer is accepted for this point. -/
def LayerHit (l : Layer K) (pt : Vec2 K) : Prop := ∃ p ∈ l.polygons, l.pointInPolygon pt p = .ok true

theorem ofNat_ne_max {i n : Nat} (h : i < n) (hn : n ≤ 2 ^ 24 - 1) : UInt32.ofNat i ≠ u32Max := by
  intro h0
  have := congrArg UInt32.toNat h0
  rw [UInt32.toNat_ofNat_of_lt' (show i < 4294967296 by omega)] at this
  simp [u32Max] at this
  omega

/-- The lookup in a layer succeeds iff some polygon accepts the point, provided that polygons only accept
points of their bounding boxes. -/
theorem locate_iff_of_box {bvh : Bvh K} (hb : bvh.Complete) {l : Layer K} (hl : l.Findable)
    (hf : l.FinderOk) (pt : Vec2 K)
    (hin : ∀ p ∈ l.polygons, l.pointInPolygon pt p = .ok true → InBox (l.polygonAabb p) pt) :
    ∃ r, l.locate bvh pt = .ok r ∧ (r ≠ u32Max ↔ LayerHit l pt) := by
  have hans : ∀ p ∈ l.polygons, ∃ b, l.pointInPolygon pt p = .ok b :=
    fun p hp => pointInPolygon_answers l pt p (hl.nonempty p hp)
  have hok : ∃ r, l.locate bvh pt = .ok r := by
    unfold Layer.locate
    split
    · unfold Layer.locationUnit
      generalize 0 = i
      revert hans
      induction l.polygons generalizing i with
      | nil => exact fun _ => ⟨_, rfl⟩
      | cons p ps ih =>
        intro hans
        obtain ⟨b, hb⟩ := hans p (by simp)
        simp only [Layer.scanPolygons, hb, res_bind_ok]
        cases b
        · exact ih (i + 1) (fun p hp => hans p (List.mem_cons_of_mem _ hp))
        · exact ⟨_, rfl⟩
    · rename_i boxes hbox
      unfold Layer.locationUnitBaked
      obtain ⟨r, hr, -⟩ := findFirst_ok (f := fun i => do
          let p ← idx l.polygons i
          if ← l.pointInPolygon pt p then .ok (some (UInt32.ofNat i)) else .ok none)
        (l := bvh boxes pt) (fun _ => True) (by
          intro i hi
          have hlt := hb.inRange boxes pt i hi
          rw [hl.baked boxes hbox] at hlt
          obtain ⟨b, hb⟩ := hans l.polygons[i] (List.getElem_mem hlt)
          rw [idx_eq_ok.2 (List.getElem?_eq_getElem hlt), res_bind_ok, hb, res_bind_ok]
          cases b
          · exact ⟨none, rfl, by simp⟩
          · exact ⟨some _, rfl, by simp⟩)
      rw [hr]
      exact ⟨_, rfl⟩
  obtain ⟨r, hr⟩ := hok
  refine ⟨r, hr, fun hne => ?_, ?_⟩
  · obtain ⟨i, p, h1, -, h3⟩ := locate_found hr hne
    exact ⟨p, List.mem_of_getElem? h1, h3⟩
  · rintro ⟨p, hp, hpp⟩ rfl
    unfold Layer.locate at hr
    split at hr
    · rcases scanPolygons_found _ _ _ hr with ⟨-, h2⟩ | ⟨j, p', h1, h2, -⟩
      · rw [h2 p hp] at hpp; simp at hpp
      · exact ofNat_ne_max (List.getElem?_eq_some_iff.1 h1).1 hl.sized (by simpa using h2.symm)
    · rename_i boxes hbox
      unfold Layer.locationUnitBaked at hr
      simp only [bind_eq_ok, Except.ok.injEq] at hr
      obtain ⟨o, ho, h⟩ := hr
      obtain ⟨i, hi⟩ := List.mem_iff_getElem?.1 hp
      have hilt := (List.getElem?_eq_some_iff.1 hi).1
      cases o with
      | some r' =>
        simp only [Option.getD_some] at h
        subst h
        obtain ⟨l1, j, l2, -, hj, -⟩ := findFirst_some ho
        simp only [bind_eq_ok, idx_eq_ok] at hj
        obtain ⟨p', hp', b, hb', hj⟩ := hj
        cases b with
        | true =>
          simp only [if_true, Except.ok.injEq, Option.some.injEq] at hj
          exact ofNat_ne_max (List.getElem?_eq_some_iff.1 hp').1 hl.sized hj
        | false => simp at hj
      | none =>
        rw [findFirst_none] at ho
        have hboxes := hf boxes hbox
        simp only [Layer.bakePolygonFinder, Option.getD_some] at hboxes
        have hbi : boxes[i]? = some (l.polygonAabb p) := by
          rw [hboxes, List.getElem?_map, hi]; rfl
        have := ho i (hb.complete boxes pt i _ hbi (hin p hp hpp))
        rw [idx_eq_ok.2 hi, res_bind_ok, hpp, res_bind_ok] at this
        simp at this

end Polyanya
