import Verif.Proofs.LocateExt
/-
Where `get_path` locates a point of the first layer.
-/

namespace Polyanya

variable {F : Type} [Field F] [LinearOrder F] [Scalar F] [ExactField F] [IsStrictOrderedRing F]

/-- A point of the first layer is located in a polygon that contains it. -/
theorem location_first {bvh : Bvh (Ext F)} (hb : bvh.Complete) {m : Mesh (Ext F)} (hm : m.Searchable)
    (hc : Conforming m) {x : Vec2 F} (hx : Sharp m x) (hin : InLayer m 0 x) :
    ∃ s, m.getPointLocation bvh (Coords.onMesh x.fin) = .ok s ∧ s ≠ u32Max ∧ InPolygon m s x := by
  obtain ⟨id, hid, ps, ⟨l, p, hh, hfor⟩, hins⟩ := id hin
  have hl : m.layers[0]? = some l := by rw [← hid]; exact hh.1
  obtain ⟨r, h1, h2, h3⟩ := locate_ext hb hm hc hx hl
  have hr : r ≠ u32Max := h2.2 hin
  obtain ⟨k, p', hk, rfl, -⟩ := locate_found h1 hr
  -- the offset of the layer is finite
  obtain ⟨ps', hr', hconv⟩ := hc.convex _ _ _ hh
  obtain ⟨l', p'', hh', hfor'⟩ := hr'
  have e1 := hh'.1
  rw [hh.1] at e1
  cases e1
  obtain ⟨X, hX⟩ : ∃ X, ps'[0]? = some X := ⟨_, List.getElem?_eq_getElem (by have := hconv.1; omega)⟩
  obtain ⟨i, -, hat⟩ := forall₂_getElem' hfor' hX
  obtain ⟨-, -, o, -, -, ho, -⟩ := hat.finite
  have hzero : (x.fin - l.offset) + (⟨Scalar.lit 0 0, Scalar.lit 0 0⟩ : Vec2 (Ext F)) = x.fin - l.offset := by
    rw [ho, fin_sub]
    have e0 : (⟨Scalar.lit 0 0, Scalar.lit 0 0⟩ : Vec2 (Ext F)) = Vec2.fin ⟨0, 0⟩ := by
      rw [ext_zero]; rfl
    rw [e0, fin_add]
    simp
  have hlay : l.getPointLocation bvh (x.fin - l.offset) m.searchDelta = .ok (some (UInt32.ofNat k)) := by
    unfold Layer.getPointLocation probeOffsets
    simp only [findFirst]
    rw [hzero, h1]
    simp only [res_bind_ok, if_pos hr]
  have hs := (hm.layer l (List.mem_of_getElem? hl)).1.sized
  have hk' := (List.getElem?_eq_some_iff.1 hk).1
  have hne : packId 0 (UInt32.ofNat k) ≠ u32Max := by
    apply packId_ne_max
    rw [UInt32.toNat_ofNat_of_lt' (show k < 4294967296 by omega)]
    omega
  refine ⟨packId 0 (UInt32.ofNat k), ?_, hne, h3 hr⟩
  obtain ⟨rest, hrest⟩ : ∃ rest, m.layers = l :: rest := by
    cases hml : m.layers with
    | nil => rw [hml] at hl; simp at hl
    | cons a rest => rw [hml] at hl; simp at hl; exact ⟨rest, by rw [hl]⟩
  unfold Mesh.getPointLocation Coords.onMesh Mesh.numbered
  simp only [hrest, List.zipIdx_cons, List.map_cons, findFirst]
  have e8 : UInt8.ofNat 0 = 0 := rfl
  simp only [Mesh.locationInLayer, hlay, res_bind_ok, Option.map_some, e8]
  have hf : (some (packId 0 (UInt32.ofNat k))).filter (· != u32Max) = some (packId 0 (UInt32.ofNat k)) := by
    simp [Option.filter, hne]
  rw [hf]
  rfl

end Polyanya
