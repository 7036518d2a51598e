import Verif.Props.StitchPoints
import Verif.Props.StitchingExamples
/-
C48, at points.
-/

namespace Polyanya

variable {K : Type} [Scalar K]

/-- The first vertex at a point, in meshes of the same shape. -/
theorem FirstAt.same {m m' : Mesh K} (h : SameShape m m') {a : Nat} {pt : Vec2 K} {i : Nat} (hf : FirstAt m' a pt i) :
    FirstAt m a pt i := by
  obtain ⟨l', v', hl, hv, hb, hfirst⟩ := hf
  obtain ⟨l, hl', hs⟩ := h.layer hl
  have hco : ∀ j : Nat, l'.vertices[j]?.map (·.coords) = l.vertices[j]?.map (·.coords) := fun j => by
    rw [← List.getElem?_map, ← List.getElem?_map, hs.coords]
  have hi := hco i
  rw [hv] at hi
  cases hv' : l.vertices[i]? with
  | none => rw [hv'] at hi; simp at hi
  | some v =>
    rw [hv'] at hi
    simp only [Option.map_some, Option.some.injEq] at hi
    refine ⟨l, v, hl', hv', hi ▸ hb, fun j w hj hw => ?_⟩
    have hj' := hco j
    rw [hw] at hj'
    cases hw' : l'.vertices[j]? with
    | none => rw [hw'] at hj'; simp at hj'
    | some w' =>
      rw [hw'] at hj'
      simp only [Option.map_some, Option.some.injEq] at hj'
      rw [← hj']
      exact hfirst j w' hj hw'

theorem AtPoints.same {m m' : Mesh K} (h : SameShape m m') {sp : StitchPoints K} {sv : StitchVertices}
    (ha : AtPoints m' sp sv) : AtPoints m sp sv :=
  List.Forall₂.imp (fun _ _ hh => ⟨hh.1, hh.2.imp (fun _ _ h2 => ⟨h2.1.same h, h2.2.same h⟩)⟩) ha

/-- **C48** at points: replacing a layer and stitching it again at given points, with `restitch_layer_at_points`, gives the layers
stitched by the first vertices at these points. -/
theorem C48_restitch_at_points (m : Mesh K) (hm : m.Unstitched) (s : StitchVertices) (hs : StitchesExist m s) (oneWay : Bool)
    (sorter : Sorter) (hsort : sorter.Ok) (t : UInt8) (new : Layer K)
    (hnew : ({ m with layers := m.layers.set t.toNat new } : Mesh K).Unstitched) (sp : StitchPoints K) (s' : StitchVertices)
    (hat : AtPoints { m with layers := m.layers.set t.toNat new } sp s') (hne : ∀ e ∈ sp, e.1.1 ≠ e.1.2)
    (hsame : ∀ e, e.1.1 ≠ t → e.1.2 ≠ t → (e ∈ s ↔ e ∈ s')) :
    ∃ m2 m', m.stitchAtVertices sorter s oneWay = .ok m2 ∧
      let m3 := m2.removeStitchesTo t
      ({ m3 with layers := m3.layers.set t.toNat new } : Mesh K).restitchAtPoints sorter t sp oneWay = .ok m' ∧
      SameShape { m with layers := m.layers.set t.toNat new } m' ∧
      StitchedBy { m with layers := m.layers.set t.toNat new } m' s' oneWay ∧
      (∀ l ∈ m'.layers, ∀ v ∈ l.vertices, (v.isCorner = true ↔ u32Max ∈ v.polygons)) := by
  obtain ⟨m2, m', h1, h2, h3, h4, h5⟩ := C48_restitch m hm s hs oneWay sorter hsort t new hnew s' (atPoints_exist hat hne) hsame
  refine ⟨m2, m', h1, ?_, h3, h4, h5⟩
  obtain ⟨m2', e2, hsh2, -⟩ := C20_stitch m hm s hs oneWay sorter hsort
  obtain rfl : m2 = m2' := by rw [h1] at e2; exact Except.ok.inj e2
  obtain ⟨m3, hm3⟩ : ∃ m3 : Mesh K, m3 = m2.removeStitchesTo t := ⟨_, rfl⟩
  have hsh3 : SameShape m m3 := hm3 ▸ hsh2.trans (removeTo_shape m2 t)
  have hlen3 : m3.layers.length = m.layers.length := hsh3.2.length_eq.symm
  simp only [← hm3] at h2 ⊢
  have hsh4 : SameShape { m with layers := m.layers.set t.toNat new } { m3 with layers := m3.layers.set t.toNat new } := by
    refine ⟨?_, ?_⟩
    · rw [hsh3.1]
    · refine List.forall₂_iff_get.2 ⟨by simp [hlen3], ?_⟩
      intro a h1 h2
      simp only [List.get_eq_getElem, List.getElem_set]
      split
      · exact .refl _
      · exact (List.forall₂_iff_get.1 hsh3.2).2 a (by simpa using h1) (by simpa using h2)
  unfold Mesh.restitchAtPoints
  rw [toStitchVertices_iff.2 (hat.same hsh4.symm), res_bind_ok]
  exact h2

/-- Non-vacuity: the update of `fillMesh` of the example for `C48_restitch`, given by points. -/
example : AtPoints ({ fillMesh with layers := fillMesh.layers.set (1 : UInt8).toNat fillLayer2 } : Mesh Rat)
    [((0, 1), [v2 1 1, v2 2 1])] [((0, 1), [(4, 0), (5, 1)])] :=
  toStitchVertices_iff.1 (by decide +kernel)

end Polyanya
