import Verif.Props.Probes
import Verif.Props.Walkable
import Verif.Props.ShortestExample
/-
A concrete case of C77: a point just outside of the mesh that is found.
-/

namespace Polyanya

/-- Is the point on the grid of step 1/20 that covers the dart? -/
def onFineGrid (v : Vec2 ℚ) : Bool :=
  let i := (v.x * 20).num.toNat
  let j := ((v.y + 24) * 20).num.toNat
  decide (i ≤ 960) && decide (j ≤ 960) && decide (v = ⟨0 + 1 / 20 * i, -24 + 1 / 20 * j⟩)

theorem onFineGrid_spec {v : Vec2 ℚ} (h : onFineGrid v = true) : OnGrid (⟨0, -24⟩ : Vec2 ℚ) (1 / 20) 960 v := by
  unfold onFineGrid at h
  simp only [Bool.and_eq_true, decide_eq_true_iff] at h
  exact ⟨_, _, h.1.1, h.1.2, h.2⟩

theorem dart_searchable : dartMesh.Searchable where
  layers := by decide
  layer := by
    intro l hl
    simp only [dartMesh, Mesh.ofLayers, List.mem_singleton] at hl
    subst hl
    refine ⟨⟨by decide, by decide, by intro b h; cases h⟩, by intro b h; cases h⟩

theorem probe_cases {δ : ℚ} {x y : Vec2 ℚ} (h : Probe δ x y) {P : Vec2 ℚ → Prop}
    (hp : ∀ a ∈ [x.x, x.x + δ, x.x - δ], ∀ b ∈ [x.y, x.y + δ, x.y - δ], P ⟨a, b⟩) : P y := by
  obtain ⟨y1, y2⟩ := y
  obtain ⟨h1, h2⟩ := h
  exact hp y1 (by simpa using h1) y2 (by simpa using h2)

/-- The point (24, 18.05) is outside of the dart, by 0.05 above its upper edge, and it is found; (24, 18.25) is not found. -/
theorem C77_example :
    dartMesh.pointInMesh everyIndex (Coords.onMesh (⟨24, 361 / 20⟩ : Vec2 ℚ).fin) = .ok true ∧
    ¬ InLayer dartMesh 0 (⟨24, 361 / 20⟩ : Vec2 ℚ) ∧
    dartMesh.pointInMesh everyIndex (Coords.onMesh (⟨24, 365 / 20⟩ : Vec2 ℚ).fin) = .ok false := by
  have hsharp : ∀ x : Vec2 ℚ, (∀ a ∈ [x.x, x.x + 1 / 10, x.x - 1 / 10], ∀ b ∈ [x.y, x.y + 1 / 10, x.y - 1 / 10],
      onFineGrid ⟨a, b⟩ = true) → ∀ y, Probe (1 / 10) x y → Sharp dartMesh y := by
    intro x hx y hy
    refine sharp_of_grid (N := 960) (by norm_num) (fun v hv => onFineGrid_spec (vertices_of_check (by decide +kernel) hv))
      (onFineGrid_spec ?_)
    exact probe_cases (P := fun v => onFineGrid v = true) hy hx
  have ho : ∀ l ∈ dartMesh.layers, ∃ o : Vec2 ℚ, l.offset = o.fin := by
    intro l hl
    simp only [dartMesh, Mesh.ofLayers, List.mem_singleton] at hl
    subst hl
    exact ⟨⟨0, 0⟩, by decide +kernel⟩
  obtain ⟨b, h1, h2⟩ := C77_point_in_mesh everyIndex everyIndex_complete dartMesh dart_searchable dart_conforming ho (1 / 10)
    (by decide +kernel) (Coords.onMesh (⟨24, 361 / 20⟩ : Vec2 ℚ).fin) ⟨24, 361 / 20⟩ rfl (hsharp _ (by decide +kernel))
  have hal : Allowed (Coords.onMesh (⟨24, 361 / 20⟩ : Vec2 ℚ).fin) 0 := by intro _ h; cases h
  have hb : b = true := h2.2 ⟨0, ⟨24, 359 / 20⟩, by decide, hal, ⟨.inl rfl, .inr (.inr (by norm_num))⟩, 0, rfl,
    inPolygon_of_check (by decide +kernel)⟩
  refine ⟨by rw [h1, hb], ?_, by decide +kernel⟩
  obtain ⟨r, k1, k2, -⟩ := locate_ext everyIndex_complete dart_searchable dart_conforming
    (hsharp ⟨24, 361 / 20⟩ (by decide +kernel) _ ⟨.inl rfl, .inl rfl⟩) (show dartMesh.layers[0]? = some dartLayer from rfl)
  have k3 : dartLayer.locate everyIndex ((⟨24, 361 / 20⟩ : Vec2 ℚ).fin - dartLayer.offset) = .ok u32Max := by decide +kernel
  rw [k3] at k1
  cases k1
  intro hin
  exact k2.2 hin rfl

end Polyanya
