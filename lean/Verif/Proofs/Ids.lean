import Verif.Spec.Path
/-
Packed polygon ids in terms of division and remainder.
-/

namespace Polyanya

theorem layerOf_toNat (id : UInt32) : (layerOf id).toNat = idLayer id := by
  unfold layerOf idLayer
  have := id.toNat_lt
  simp [Nat.shiftRight_eq_div_pow]
  omega

theorem polygonOf_toNat (id : UInt32) : (polygonOf id).toNat = idPolygon id := by
  unfold polygonOf idPolygon
  rw [UInt32.toNat_and]
  exact Nat.and_two_pow_sub_one_eq_mod id.toNat 24

theorem packId_toNat (l : UInt8) (p : UInt32) (h : p.toNat < 2 ^ 24) :
    (packId l p).toNat = l.toNat * 2 ^ 24 + p.toNat := by
  unfold packId
  have hl := l.toNat_lt
  rw [UInt32.toNat_or, UInt32.toNat_shiftLeft]
  simp only [UInt8.toNat_toUInt32]
  have : (24 : UInt32).toNat % 32 = 24 := rfl
  rw [this, Nat.shiftLeft_eq, Nat.mod_eq_of_lt (by omega), Nat.mul_comm, ← Nat.two_pow_add_eq_or_of_lt h]

theorem idLayer_packId (l : UInt8) (p : UInt32) (h : p.toNat < 2 ^ 24) :
    idLayer (packId l p) = l.toNat := by
  unfold idLayer; rw [packId_toNat l p h]; omega

theorem idPolygon_packId (l : UInt8) (p : UInt32) (h : p.toNat < 2 ^ 24) :
    idPolygon (packId l p) = p.toNat := by
  unfold idPolygon; rw [packId_toNat l p h]; omega

theorem packId_ne_max (l : UInt8) (p : UInt32) (h : p.toNat < 2 ^ 24 - 1) : packId l p ≠ u32Max := by
  intro hh
  have := congrArg UInt32.toNat hh
  rw [packId_toNat l p (by omega)] at this
  have hm : u32Max.toNat = 4294967295 := rfl
  have := l.toNat_lt
  omega

end Polyanya
