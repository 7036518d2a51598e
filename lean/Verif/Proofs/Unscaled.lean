import Verif.Spec.Unscaled
import Verif.Proofs.MovedLoc
import Verif.Proofs.Ids
import Verif.Proofs.Gen
/-
With the default scales the search of `detailed-layers` computes the costs of the default build.
-/

namespace Polyanya

variable {F : Type} [Field F] [LinearOrder F] [Scalar F] [ExactField F] [IsStrictOrderedRing F]

theorem cmul_one_ext (v : Vec2 (Ext F)) : v.cmul Vec2.one = v :=
  vec_ext (ext_mul_one _) (ext_mul_one _)

variable {cfg : Cfg} {m : Mesh (Ext F)}

theorem newDistance_plain (h : cfg.detailed = true → m.Unscaled) {root : Vec2 (Ext F)} {node : SearchNode (Ext F)}
    {d : Ext F} (hd : newDistance cfg m root node = .ok d) : newDistance ⟨false⟩ m root node = .ok d := by
  unfold newDistance at hd ⊢
  split at hd
  · rename_i hb
    rw [if_pos hb]; exact hd
  · rename_i hb
    rw [if_neg hb]
    split at hd
    · rename_i hc
      simp only [bind_eq_ok] at hd
      obtain ⟨l, hl, hd⟩ := hd
      rw [(h hc).one l (List.mem_of_getElem? (idx_eq_ok.1 hl)), cmul_one_ext] at hd
      simpa using hd
    · simpa using hd

theorem newHeuristic_plain (h : cfg.detailed = true → m.Unscaled) {goal root : Vec2 (Ext F)}
    {a b : Vec2 (Ext F) × UInt32} {d : Ext F} (hd : newHeuristic cfg m goal root a b = .ok d) :
    newHeuristic ⟨false⟩ m goal root a b = .ok d := by
  unfold newHeuristic at hd ⊢
  split at hd
  · rename_i hc
    simp only [bind_eq_ok] at hd
    obtain ⟨l, hl, l', hl', hd⟩ := hd
    rw [(h hc).one l (List.mem_of_getElem? (idx_eq_ok.1 hl)), (h hc).one l' (List.mem_of_getElem? (idx_eq_ok.1 hl')),
      cmul_one_ext, cmul_one_ext] at hd
    simpa using hd
  · simpa using hd

theorem newDistance_of_plain (h : cfg.detailed = true → m.Unscaled) {root : Vec2 (Ext F)} {node : SearchNode (Ext F)}
    {l : Layer (Ext F)} (hl : m.layers[(layerOf node.polygonTo).toNat]? = some l) :
    newDistance cfg m root node = newDistance ⟨false⟩ m root node := by
  unfold newDistance
  split
  · rfl
  · split
    · rename_i hc
      rw [idx_eq_ok.2 hl, res_bind_ok, (h hc).one l (List.mem_of_getElem? hl), cmul_one_ext]
      simp
    · simp

theorem newHeuristic_of_plain (h : cfg.detailed = true → m.Unscaled) {goal root : Vec2 (Ext F)}
    {a b : Vec2 (Ext F) × UInt32} {l : Layer (Ext F)} (hl : l ∈ m.layers) (ha : a.2.toNat < l.vertices.length)
    (hb : b.2.toNat < l.vertices.length) :
    newHeuristic cfg m goal root a b = newHeuristic ⟨false⟩ m goal root a b := by
  unfold newHeuristic
  split
  · rename_i hc
    have hs := (h hc).small l hl
    have e : ∀ v : UInt32, v.toNat < l.vertices.length → (layerOf v).toNat = 0 := by
      intro v hv
      rw [layerOf_toNat]; unfold idLayer; omega
    obtain ⟨l0, h0⟩ : ∃ l0, m.layers[0]? = some l0 := by
      cases hm : m.layers with
      | nil => rw [hm] at hl; cases hl
      | cons x xs => exact ⟨x, rfl⟩
    rw [e _ ha, e _ hb, idx_eq_ok.2 h0, res_bind_ok, (h hc).one l0 (List.mem_of_getElem? h0)]
    simp [cmul_one_ext, (h hc).one l0 (List.mem_of_getElem? h0)]
  · simp

/-- Nothing is asked of the default build. -/
theorem plain_of {K : Type} [Scalar K] {cfg : Cfg} {m : Mesh K} (h : cfg.detailed = false) :
    cfg.detailed = true → m.Unscaled := by simp [h]

end Polyanya
