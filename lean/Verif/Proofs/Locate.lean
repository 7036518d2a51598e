import Verif.Proofs.Res
import Verif.Proofs.Ids
/-
Point location at the level of a layer.
-/

namespace Polyanya

variable {K : Type} [Scalar K]

theorem scanPolygons_found {l : Layer K} {pt : Vec2 K} : ∀ (ps : List Polygon) (i : Nat) (r : UInt32),
    l.scanPolygons pt i ps = .ok r →
    (r = u32Max ∧ ∀ p ∈ ps, l.pointInPolygon pt p = .ok false) ∨
    ∃ j p, ps[j]? = some p ∧ r = UInt32.ofNat (i + j) ∧ l.pointInPolygon pt p = .ok true
      ∧ ∀ k, k < j → ∃ p', ps[k]? = some p' ∧ l.pointInPolygon pt p' = .ok false
  | [], i, r, h => by
    simp only [Layer.scanPolygons, Except.ok.injEq] at h
    exact .inl ⟨h.symm, by simp⟩
  | p :: ps, i, r, h => by
    simp only [Layer.scanPolygons, bind_eq_ok] at h
    obtain ⟨b, hb, h⟩ := h
    cases b with
    | true =>
      simp only [if_true, Except.ok.injEq] at h
      exact .inr ⟨0, p, rfl, h.symm, hb, by intro k hk; omega⟩
    | false =>
      simp only [Bool.false_eq_true, if_false] at h
      rcases scanPolygons_found ps (i + 1) r h with ⟨h1, h2⟩ | ⟨j, p', h1, h2, h3, h4⟩
      · exact .inl ⟨h1, by simpa using ⟨hb, h2⟩⟩
      · refine .inr ⟨j + 1, p', by simpa using h1, by rw [h2]; congr 1; omega, h3, ?_⟩
        intro k hk
        cases k with
        | zero => exact ⟨p, rfl, hb⟩
        | succ k => simpa using h4 k (by omega)

/-- A located polygon exists and contains the point. -/
theorem locate_found {l : Layer K} {bvh : Bvh K} {pt : Vec2 K} {r : UInt32}
    (h : l.locate bvh pt = .ok r) (hr : r ≠ u32Max) :
    ∃ i p, l.polygons[i]? = some p ∧ r = UInt32.ofNat i ∧ l.pointInPolygon pt p = .ok true := by
  unfold Layer.locate at h
  split at h
  · rcases scanPolygons_found _ _ _ h with ⟨h1, -⟩ | ⟨j, p, h1, h2, h3, -⟩
    · exact absurd h1 hr
    · exact ⟨j, p, h1, by simpa using h2, h3⟩
  · unfold Layer.locationUnitBaked at h
    simp only [bind_eq_ok, Except.ok.injEq] at h
    obtain ⟨o, ho, h⟩ := h
    cases o with
    | none => exact absurd h.symm hr
    | some r' =>
      simp only [Option.getD_some] at h
      subst h
      obtain ⟨l1, i, l2, -, hi, -⟩ := findFirst_some ho
      simp only [bind_eq_ok, idx_eq_ok] at hi
      obtain ⟨p, hp, b, hb, hi⟩ := hi
      cases b with
      | true =>
        simp only [if_true, Except.ok.injEq, Option.some.injEq] at hi
        exact ⟨i, p, hp, hi.symm, hb⟩
      | false => simp at hi

theorem locate_lt {l : Layer K} {bvh : Bvh K} {pt : Vec2 K} {r : UInt32}
    (hl : l.polygons.length ≤ 2 ^ 24 - 1)
    (h : l.locate bvh pt = .ok r) (hr : r ≠ u32Max) : r.toNat < l.polygons.length := by
  obtain ⟨i, p, h1, h2, -⟩ := locate_found h hr
  have := (List.getElem?_eq_some_iff.1 h1).1
  rw [h2, UInt32.toNat_ofNat_of_lt' (show i < 4294967296 by omega)]
  exact this

theorem closestInner_found {l : Layer K} {bvh : Bvh K} {pt np : Vec2 K} {delta : K} {step : Nat}
    {r : UInt32} (h : l.closestInner bvh pt delta step = .ok (some (np, r))) :
    l.locate bvh np = .ok r ∧ r ≠ u32Max := by
  obtain ⟨_, i, _, -, hi, -⟩ := findFirst_some h
  simp only [bind_eq_ok, Except.ok.injEq] at hi
  obtain ⟨p, hp, hi⟩ := hi
  split at hi
  · simp only [Option.some.injEq, Prod.mk.injEq] at hi
    obtain ⟨rfl, rfl⟩ := hi
    exact ⟨hp, by assumption⟩
  · simp at hi

theorem mem_numbered {m : Mesh K} {i : UInt8} {l : Layer K} (h : (i, l) ∈ m.numbered) :
    ∃ j : Nat, m.layers[j]? = some l ∧ i = UInt8.ofNat j := by
  unfold Mesh.numbered at h
  simp only [List.mem_map, Prod.mk.injEq, Prod.exists] at h
  obtain ⟨l', j, hm, hi, rfl⟩ := h
  rw [List.mem_zipIdx_iff_getElem?] at hm
  exact ⟨j, hm, hi.symm⟩

/-- What the closest-point loops return: a hit of `inner` on some layer. -/
theorem closestLoop_found {m : Mesh K} {layer : Option UInt8}
    {inner : Nat → Layer K → Res (Option (Vec2 K × UInt32))} {c : Coords K}
    (h : m.closestLoop layer inner = .ok (some c)) :
    ∃ (step : Nat) (j : Nat) (l : Layer K) (np : Vec2 K) (r : UInt32), step < m.searchSteps
      ∧ m.layers[j]? = some l ∧ (∀ i, layer = some i → j = i.toNat)
      ∧ inner step l = .ok (some (np, r))
      ∧ c = { pos := np + l.offset, layer := some (UInt8.ofNat j),
              polygonIndex := packId (UInt8.ofNat j) r } := by
  unfold Mesh.closestLoop at h
  split at h
  · rename_i i
    simp only [bind_eq_ok, idx_eq_ok] at h
    obtain ⟨l, hl, h⟩ := h
    obtain ⟨l1, step, l2, hr, hi, -⟩ := findFirst_some h
    have hstep : step ∈ List.range m.searchSteps := by rw [hr]; simp
    unfold closestInLayer at hi
    simp only [bind_eq_ok, Except.ok.injEq, Option.map_eq_some_iff] at hi
    obtain ⟨_, ho, ⟨np, r⟩, rfl, rfl⟩ := hi
    exact ⟨step, i.toNat, l, np, r, by simpa using hstep, hl, by simp, ho, by simp⟩
  · obtain ⟨l1, step, l2, hr, hi, -⟩ := findFirst_some h
    have hstep : step ∈ List.range m.searchSteps := by rw [hr]; simp
    obtain ⟨k1, ⟨i, l⟩, k2, hk, hi, -⟩ := findFirst_some hi
    obtain ⟨j, hj, rfl⟩ := mem_numbered (m := m) (i := i) (l := l) (by rw [hk]; simp)
    unfold closestInLayer at hi
    simp only [bind_eq_ok, Except.ok.injEq, Option.map_eq_some_iff] at hi
    obtain ⟨_, ho, ⟨np, r⟩, rfl, rfl⟩ := hi
    exact ⟨step, j, l, np, r, by simpa using hstep, hj, by simp, ho, rfl⟩

theorem endpointPolygon_located {m : Mesh K} {bvh : Bvh K} {c : Coords K} {id : UInt32} :
    m.endpointPolygon bvh c = .ok (some id) ↔ Located m bvh c id := by
  unfold Mesh.endpointPolygon Located
  split
  · rename_i h
    simp [h, eq_comm]
  · rename_i h
    have h : c.polygonIndex = u32Max := by simpa using h
    simp only [h, ne_eq, not_true_eq_false, false_and, true_and, false_or, bind_eq_ok,
      Except.ok.injEq, Option.map_eq_some_iff]
    constructor
    · rintro ⟨_, h1, c', rfl, rfl⟩
      exact ⟨c', h1, rfl⟩
    · rintro ⟨c', h1, rfl⟩
      exact ⟨_, h1, c', rfl, rfl⟩

theorem located_ne_max {m : Mesh K} {bvh : Bvh K} {c : Coords K} {id : UInt32} (hm : m.Sized)
    (h : Located m bvh c id) : id ≠ u32Max := by
  rcases h with ⟨h1, rfl⟩ | ⟨-, c', h1, rfl⟩
  · exact h1
  · obtain ⟨step, j, l, np, r, -, hj, -, hi, rfl⟩ := closestLoop_found h1
    obtain ⟨h2, h3⟩ := closestInner_found hi
    have hl := hm l (List.mem_of_getElem? hj)
    have := locate_lt hl h2 h3
    exact packId_ne_max _ _ (by omega)

end Polyanya
