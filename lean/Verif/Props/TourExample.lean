import Verif.Props.TourOf
import Verif.Props.Stacked
/-
A path over two layers (C67), and a path along the seam.
-/

namespace Polyanya

variable {F : Type} [Field F] [LinearOrder F] [Scalar F]

/-- Is no edge where layers meet on the line from `p` to `q`? -/
def clearCheck (m : Mesh (Ext F)) (p q : Vec2 F) : Bool :=
  (crossings m).all fun c => decide (idLayer c.src = idLayer c.dst) ||
    match endsOf m c with
    | none => true
    | some (A, B) => ! decide (tri A B p = 0 ∧ tri A B q = 0)

theorem clearLeg_of_check {m : Mesh (Ext F)} {p q : Vec2 F} (h : clearCheck m p q = true) : ClearLeg m p q := by
  intro c A B hv hne hat
  have := List.all_eq_true.1 h c (mem_crossings hv)
  rw [endsOf_eq.2 hat] at this
  simp only [Bool.or_eq_true, decide_eq_true_eq, hne, false_or, Bool.not_eq_true', decide_eq_false_iff_not] at this
  exact this

theorem spiral_grid' : GridMesh spiralStitched ⟨20, 12⟩ ⟨4, 4⟩ ⟨0, 0⟩ 4 6 where
  pos := by norm_num
  few := by norm_num
  coarse := by norm_num
  large := by norm_num
  vertices v hv := onGridSpiral_spec (vertices_of_check (by decide +kernel) hv)
  start := onGridSpiral_spec (by decide +kernel)
  goal := onGridSpiral_spec (by decide +kernel)

theorem located_det {K : Type} [Scalar K] {m : Mesh K} {bvh : Bvh K} {c : Coords K} {s e : UInt32}
    (h : m.endpointPolygon bvh c = .ok (some e)) (h' : Located m bvh c s) : s = e := by
  have := (endpointPolygon_located.2 h').symm.trans h
  simpa using this

theorem spiral_detailed : resIs (spiralStitched.pathOnLayers everyIndex maxHeap ⟨true⟩ (Coords.onLayer (e2 20 12) 0)
    (Coords.onLayer (e2 4 4) 1) []) (fun r => r.any (fun p => decide (p.path = [e2 16 16, e2 8 16, e2 4 4] ∧
      p.pathWithLayers = [(e2 16 16, 0), (e2 8 16, 0), (e2 (16 / 3) 8, 1), (e2 4 4, 1)]))) = true := by
  decide +kernel

/-- The hypotheses of C67 are met by a path of two stitched layers that bends twice and then crosses the seam. -/
example : ∃ p full, spiralStitched.pathOnLayers everyIndex maxHeap ⟨true⟩ (Coords.onLayer (e2 20 12) 0)
      (Coords.onLayer (e2 4 4) 1) [] = .ok (some p)
    ∧ p.pathWithLayers = [(e2 16 16, 0), (e2 8 16, 0), (e2 (16 / 3) 8, 1), (e2 4 4, 1)]
    ∧ Thinned full [(⟨16, 16⟩, 0), (⟨8, 16⟩, 0), (⟨16 / 3, 8⟩, 1), (⟨4, 4⟩, 1)]
    ∧ Tour spiralStitched 0 2 ⟨20, 12⟩ [⟨16, 16⟩, ⟨8, 16⟩, ⟨4, 4⟩] full 1 16777216 ⟨4, 4⟩
    ∧ Traces ⟨20, 12⟩ [⟨16, 16⟩, ⟨8, 16⟩, ⟨4, 4⟩] full := by
  obtain ⟨r, hr, hp⟩ := of_resIs spiral_detailed
  cases r with
  | none => simp at hp
  | some p =>
    simp only [Option.any_some, decide_eq_true_iff] at hp
    have l1 : spiralStitched.endpointPolygon everyIndex (Coords.onLayer (e2 20 12) 0) = .ok (some 2) := by decide +kernel
    have l2 : spiralStitched.endpointPolygon everyIndex (Coords.onLayer (e2 4 4) 1) = .ok (some 16777216) := by
      decide +kernel
    obtain ⟨s, e, ws, h1, h2, h3, h4⟩ := C67_path_with_layers everyIndex maxHeap spiralStitched
      (by intro l hl; have : (spiralStitched.layers.all fun l => decide (l.polygons.length ≤ 2 ^ 24 - 1)) = true := by
            decide +kernel
          exact of_decide_eq_true (List.all_eq_true.1 this l hl))
      (conforms_of_check (by decide +kernel)) (Coords.onLayer (e2 20 12) 0) (Coords.onLayer (e2 4 4) 1) ⟨20, 12⟩ ⟨4, 4⟩
      rfl rfl (fun s hs => by rw [located_det l1 hs]; exact inPolygon_of_check (by decide +kernel))
      (fun s hs => by rw [located_det l2 hs]; exact inPolygon_of_check (by decide +kernel))
      (noNearMiss_of_grid spiral_grid'.pos spiral_grid'.few spiral_grid'.coarse spiral_grid'.large spiral_grid'.vertices
        spiral_grid'.start spiral_grid'.goal) [] p hr
    obtain rfl := located_det l1 h1
    obtain rfl := located_det l2 h2
    have hws : ws = [⟨16, 16⟩, ⟨8, 16⟩, ⟨4, 4⟩] := List.map_injective_iff.2 (fun _ _ h => Vec2.fin_injective h) (h3.symm.trans hp.1)
    subst hws
    obtain ⟨full, thinned, k1, k2, k3, k4⟩ := h4 (by
      simp only [List.isChain_cons_cons, List.isChain_singleton, and_true]
      refine ⟨clearLeg_of_check (by decide +kernel), clearLeg_of_check (by decide +kernel),
        clearLeg_of_check (by decide +kernel)⟩)
    have : thinned = [(⟨16, 16⟩, 0), (⟨8, 16⟩, 0), (⟨16 / 3, 8⟩, 1), (⟨4, 4⟩, 1)] := by
      have hinj : Function.Injective (finEntry : Vec2 ℚ × UInt8 → _) := by
        rintro ⟨a, i⟩ ⟨b, j⟩ h
        simp only [finEntry, Prod.mk.injEq] at h
        rw [Vec2.fin_injective h.1, h.2]
      exact List.map_injective_iff.2 hinj (k1.symm.trans hp.2)
    subst this
    exact ⟨p, full, hr, hp.2, k2, k3, k4⟩

/-! ### Along the seam -/

/-- A square. -/
def seam0 : Layer (Ext ℚ) := Layer.mk'
  [ Vertex.new (e2 0 8) [0, u32Max], Vertex.new (e2 8 8) [0, u32Max], Vertex.new (e2 8 16) [0, u32Max],
    Vertex.new (e2 0 16) [0, u32Max] ]
  [ Polygon.new [0, 1, 2, 3] false ]

/-- Two squares, of scale 2. -/
def seam1 : Layer (Ext ℚ) := { Layer.mk'
  [ Vertex.new (e2 0 0) [0, u32Max], Vertex.new (e2 8 0) [0, 1, u32Max], Vertex.new (e2 16 0) [1, u32Max],
    Vertex.new (e2 0 8) [0, u32Max], Vertex.new (e2 8 8) [0, 1, u32Max], Vertex.new (e2 16 8) [1, u32Max] ]
  [ Polygon.new [0, 1, 4, 3] false, Polygon.new [1, 2, 5, 4] false ] with scale := e2 2 2 }

/-- The square above the first of the two squares; the seam goes from (0, 8) to (8, 8). -/
def seamMesh : Mesh (Ext ℚ) :=
  match (Mesh.ofLayers [seam0, seam1]).stitchAtVertices insSorter [((0, 1), [(0, 3), (1, 4)])] false with
  | .ok m => m
  | .error _ => Mesh.ofLayers []

theorem seam_grid : GridMesh seamMesh ⟨4, 8⟩ ⟨12, 8⟩ ⟨0, 0⟩ 4 6 where
  pos := by norm_num
  few := by norm_num
  coarse := by norm_num
  large := by norm_num
  vertices v hv := onGridSpiral_spec (vertices_of_check (by decide +kernel) hv)
  start := onGridSpiral_spec (by decide +kernel)
  goal := onGridSpiral_spec (by decide +kernel)

/-- **The condition on seams in C67 is needed**: the path from the point (4, 8) of layer 0 along the seam to (12, 8) in layer 1 is listed
as if all of it were in layer 0, and measured with the scale of layer 0 (its length is reported as 8), although the part behind
(8, 8), where (10, 8) is, is in layer 1 only, which has the scale 2. -/
theorem C67_seam_false : ∃ (m : Mesh (Ext ℚ)) (start goal y : Vec2 ℚ) (p : Path (Ext ℚ)),
    (Mesh.ofLayers [seam0, seam1]).stitchAtVertices insSorter [((0, 1), [(0, 3), (1, 4)])] false = .ok m ∧
    Conforming m ∧ NoNearMiss m start goal ∧ Located m everyIndex (Coords.onLayer start.fin 0) 0 ∧
    Located m everyIndex (Coords.onLayer goal.fin 1) 16777217 ∧
    m.pathOnLayers everyIndex maxHeap ⟨true⟩ (Coords.onLayer start.fin 0) (Coords.onLayer goal.fin 1) [] = .ok (some p) ∧
    p.path = [goal.fin] ∧ p.pathWithLayers = [(goal.fin, 1)] ∧ p.length = .fin 8 ∧
    Between start goal y ∧ ∀ s, idLayer s = 0 → ¬ InPolygon m s y := by
  have h : resIs (seamMesh.pathOnLayers everyIndex maxHeap ⟨true⟩ (Coords.onLayer (e2 4 8) 0)
    (Coords.onLayer (e2 12 8) 1) []) (fun r => r.any (fun p => decide (p.path = [e2 12 8] ∧
      p.pathWithLayers = [(e2 12 8, 1)] ∧ p.length = .fin 8))) = true := by decide +kernel
  obtain ⟨r, hr, hp⟩ := of_resIs h
  cases r with
  | none => simp at hp
  | some p =>
    simp only [Option.any_some, decide_eq_true_iff] at hp
    have hm : resIs ((Mesh.ofLayers [seam0, seam1]).stitchAtVertices insSorter [((0, 1), [(0, 3), (1, 4)])] false)
        (fun _ => true) = true := by decide +kernel
    obtain ⟨m', hm', -⟩ := of_resIs hm
    have hst : (Mesh.ofLayers [seam0, seam1]).stitchAtVertices insSorter [((0, 1), [(0, 3), (1, 4)])] false
        = .ok seamMesh := by
      unfold seamMesh
      rw [hm']
    refine ⟨seamMesh, ⟨4, 8⟩, ⟨12, 8⟩, ⟨10, 8⟩, p, hst, conforms_of_check (by decide +kernel),
      noNearMiss_of_grid seam_grid.pos seam_grid.few seam_grid.coarse seam_grid.large seam_grid.vertices
        seam_grid.start seam_grid.goal, endpointPolygon_located.1 (by decide +kernel),
      endpointPolygon_located.1 (by decide +kernel), hr, hp.1, hp.2.1, hp.2.2,
      ⟨3 / 4, by norm_num, by norm_num, by simp only [along]; norm_num⟩, ?_⟩
    rintro s h0 ⟨ps, hps, hin⟩
    have hs : s = 0 := by
      obtain ⟨l, q, ⟨hl, hq⟩, -⟩ := hps
      rw [h0] at hl
      have hone : (seamMesh.layers[0]?.map fun l => l.polygons.length) = some 1 := by decide +kernel
      rw [hl] at hone
      have hlen := (List.getElem?_eq_some_iff.1 hq).1
      simp only [Option.map_some, Option.some.injEq] at hone
      rw [hone] at hlen
      have e1 : s.toNat = idLayer s * 2 ^ 24 + idPolygon s := by
        unfold idLayer idPolygon; omega
      apply UInt32.toNat_inj.1
      rw [e1, h0]; simp; omega
    subst hs
    have hc : insideCheck seamMesh 0 ⟨10, 8⟩ = false := by decide +kernel
    have hr' : ringOf seamMesh 0 = some [⟨0, 8⟩, ⟨8, 8⟩, ⟨8, 16⟩, ⟨0, 16⟩] := by decide +kernel
    have := (inPolygon_iff_check hr').1 ⟨ps, hps, hin⟩
    rw [hc] at this
    simp at this

end Polyanya
