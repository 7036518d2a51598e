import Verif.Props.Safety
import Verif.Props.Location
import Verif.Proofs.LocateIff
import Verif.Proofs.Checks
import Verif.Spec.Binary32
import Verif.Spec.RatScalar
/-
C87: unbaking a mesh never loses a point, in any arithmetic; baking loses points with f32 numbers.
-/

namespace Polyanya

section
variable {K : Type} [Scalar K]

theorem pointInPolygon_unbake (l : Layer K) (pt : Vec2 K) (p : Polygon) :
    l.unbake.pointInPolygon pt p = l.pointInPolygon pt p := by
  have h : ∀ es, l.unbake.pointInEdges pt es = l.pointInEdges pt es := by
    intro es
    induction es with
    | nil => rfl
    | cons e es ih => unfold Layer.pointInEdges; rw [ih]; rfl
  unfold Layer.pointInPolygon
  simp only [h]

omit [Scalar K] in
theorem findable_unbake {l : Layer K} (h : l.Findable) : l.unbake.Findable :=
  ⟨h.sized, h.nonempty, by simp [Layer.unbake]⟩

/-- C87, the part that holds: a point that is in a mesh is in the mesh without its baked data, in every arithmetic. -/
theorem C87_unbake_partial (bvh : Bvh K) (hb : bvh.InRange) (m : Mesh K) (hm : ∀ l ∈ m.layers, l.Findable)
    (hlen : m.layers.length ≤ 256) (c : Coords K) (h : m.pointInMesh bvh c = .ok true) :
    m.unbake.pointInMesh bvh c = .ok true := by
  have hsz : m.Sized := fun l hl => (hm l hl).sized
  have hm' : ∀ l ∈ m.unbake.layers, l.Findable := by
    intro l hl
    simp only [Mesh.unbake, List.mem_map] at hl
    obtain ⟨l, hl, rfl⟩ := hl
    exact findable_unbake (hm l hl)
  have hsz' : m.unbake.Sized := fun l hl => (hm' l hl).sized
  obtain ⟨cs, hcs⟩ := (C10_point_queries bvh m c hb (fun l hl => ⟨(hm l hl).nonempty, (hm l hl).sized, (hm l hl).baked⟩)).2.1
  obtain ⟨cs', hcs'⟩ := (C10_point_queries bvh m.unbake c hb
    (fun l hl => ⟨(hm' l hl).nonempty, (hm' l hl).sized, (hm' l hl).baked⟩)).2.1
  rw [C15_point_in_mesh bvh m c cs hsz hcs] at h
  rw [C15_point_in_mesh bvh m.unbake c cs' hsz' hcs']
  obtain ⟨js, hjs0, -, hjs⟩ := getPointLayer_shape hsz hlen hcs
  obtain ⟨js', hjs0', -, hjs'⟩ := getPointLayer_shape hsz' (by simpa [Mesh.unbake] using hlen) hcs'
  cases js with
  | nil => rw [hjs0] at h; simp at h
  | cons jp js =>
    obtain ⟨hal, l, hl, l1, d, l2, hd, hloc, hne, -⟩ := (hjs jp.1 jp.2).1 (by simp)
    obtain ⟨i, p, hi, -, hin⟩ := locate_found hloc hne
    have hl' : m.unbake.layers[jp.1]? = some l.unbake := by simp [Mesh.unbake, hl]
    have hf : l.Findable := hm l (List.mem_of_getElem? hl)
    -- the scan answers for every probe
    have hans : ∀ pt, ∃ r, l.unbake.locate bvh pt = .ok r ∧ (r = u32Max → ∀ q ∈ l.polygons, l.pointInPolygon pt q = .ok false) := by
      intro pt
      have hok : ∀ (ps : List Polygon) (i : Nat), (∀ q ∈ ps, q.vertices ≠ []) → ∃ r, l.unbake.scanPolygons pt i ps = .ok r := by
        intro ps
        induction ps with
        | nil => exact fun _ _ => ⟨_, rfl⟩
        | cons q ps ih =>
          intro i hne
          obtain ⟨b, hb⟩ := pointInPolygon_answers l.unbake pt q (hne q (by simp))
          simp only [Layer.scanPolygons, hb, res_bind_ok]
          cases b
          · exact ih (i + 1) (fun q hq => hne q (List.mem_cons_of_mem _ hq))
          · exact ⟨_, rfl⟩
      obtain ⟨r, hr⟩ := hok l.polygons 0 hf.nonempty
      refine ⟨r, hr, ?_⟩
      rintro rfl q hq
      rcases scanPolygons_found _ _ _ hr with ⟨-, h2⟩ | ⟨j, p', h1, h2, -⟩
      · have := h2 q hq
        rwa [pointInPolygon_unbake] at this
      · exact absurd (by simpa using h2.symm) (ofNat_ne_max (List.getElem?_eq_some_iff.1 h1).1 hf.sized)
    have hget : ∃ p2, l.unbake.getPointLocation bvh (c.pos - l.offset) m.searchDelta = .ok (some p2) := by
      obtain ⟨r, hr, -⟩ := findFirst_ok (f := fun d => do
          let p ← l.unbake.locate bvh (c.pos - l.offset + d)
          .ok (if p ≠ u32Max then some p else none)) (l := probeOffsets m.searchDelta) (fun _ => True) (by
            intro d _
            obtain ⟨p, hp, -⟩ := hans (c.pos - l.offset + d)
            rw [hp, res_bind_ok]
            exact ⟨_, rfl, fun _ _ => trivial⟩)
      cases r with
      | some p2 => exact ⟨p2, hr⟩
      | none =>
        exfalso
        rw [findFirst_none] at hr
        have := hr d (by rw [hd]; simp)
        obtain ⟨r, hr', hmax⟩ := hans (c.pos - l.offset + d)
        rw [hr', res_bind_ok] at this
        have hr0 : r = u32Max := by
          by_contra h0
          rw [if_pos h0] at this
          simp at this
        have hf := hmax hr0 p (List.mem_of_getElem? hi)
        rw [hin] at hf
        simp at hf
    obtain ⟨p2, hp2⟩ := hget
    have hmem : (jp.1, p2) ∈ js' := (hjs' jp.1 p2).2 ⟨hal, l.unbake, hl', layer_getPointLocation_some hp2⟩
    rw [hjs0']
    cases js' with
    | nil => cases hmem
    | cons _ _ => rfl

end

/-! ### With f32 numbers -/

/-- A sliver of a triangle, about 25 million units long and a few units wide. -/
def sliverVertices : List (Vertex B32) :=
  [ Vertex.new (f2 (-10399500) (-10399531)) [0, u32Max], Vertex.new (f2 14872302 14872317) [0, u32Max],
    Vertex.new (f2 903246 903254) [0, u32Max] ]

def sliverPolygons : List Polygon := [Polygon.new [0, 1, 2] false]

/-- The boxes that contain the point. -/
def inBoxes : Bvh B32 := fun boxes pt => (List.range boxes.length).filter (fun i =>
  match boxes[i]? with
  | some b => (b.1.x <=. pt.x) && (pt.x <=. b.2.x) && (b.1.y <=. pt.y) && (pt.y <=. b.2.y)
  | none => false)

theorem inBoxes_complete : inBoxes.Complete where
  inRange boxes pt i h := by
    unfold inBoxes at h
    exact List.mem_range.1 (List.mem_filter.1 h).1
  complete boxes pt i b hb h := by
    unfold inBoxes
    rw [List.mem_filter, hb]
    refine ⟨List.mem_range.2 (List.getElem?_eq_some_iff.1 hb).1, ?_⟩
    obtain ⟨h1, h2, h3, h4⟩ := h
    simp only [h1, h2, h3, h4, Bool.and_self]

namespace SliverDec
deriving instance DecidableEq for Layer
deriving instance DecidableEq for Mesh
end SliverDec
open SliverDec

def sliverMesh : Mesh B32 := Mesh.ofLayers [Layer.mk' sliverVertices sliverPolygons]

/-- C87 is false with f32 numbers: `Mesh::new` bakes, and a point three units outside the bounding box of the triangle,
which rounding puts to the left of all three edges, is in the mesh after `unbake`, and not before. The same holds for
the existence of a path from there to a corner of the triangle. -/
theorem C87_false : ∃ m, Mesh.new sliverVertices sliverPolygons = .ok (.ok m) ∧ m.unbake = sliverMesh ∧
    m.pointInMesh inBoxes (Coords.onMesh (f2 14872305 14872320)) = .ok false ∧
    m.unbake.pointInMesh inBoxes (Coords.onMesh (f2 14872305 14872320)) = .ok true ∧
    m.pathOnLayers inBoxes maxHeap ⟨false⟩ (Coords.onMesh (f2 14872305 14872320)) (Coords.onMesh (f2 14872302 14872317)) [] =
      .ok none ∧
    ∃ p, m.unbake.pathOnLayers inBoxes maxHeap ⟨false⟩ (Coords.onMesh (f2 14872305 14872320))
      (Coords.onMesh (f2 14872302 14872317)) [] = .ok (some p) := by
  have hb : ∃ m : Mesh B32, Mesh.new sliverVertices sliverPolygons = .ok (.ok m) ∧
      m.layers = [{ Layer.mk' sliverVertices sliverPolygons with
        baked := some [(f2 (-10399500) (-10399531), f2 14872302 14872317)], islands := some [0] }] ∧
      m.searchDelta = Scalar.lit 1 1 ∧ m.searchSteps = 2 := by
    obtain ⟨r, h1, h2⟩ := of_resIs (x := Mesh.new sliverVertices sliverPolygons) (f := fun r => match r with
      | .ok m => decide (m.layers = [{ Layer.mk' sliverVertices sliverPolygons with
          baked := some [(f2 (-10399500) (-10399531), f2 14872302 14872317)], islands := some [0] }] ∧
          m.searchDelta = Scalar.lit 1 1 ∧ m.searchSteps = 2)
      | .error _ => false) (by decide +kernel)
    cases r with
    | error e => simp at h2
    | ok m => exact ⟨m, h1, by simpa using h2⟩
  obtain ⟨m, hm, h1, h2, h3⟩ := hb
  obtain ⟨layers, delta, steps⟩ := m
  dsimp only at h1 h2 h3
  subst h1 h2 h3
  refine ⟨_, hm, by decide +kernel, by decide +kernel, by decide +kernel, by decide +kernel, ?_⟩
  obtain ⟨r, h4, h5⟩ := of_resIs (x := sliverMesh.pathOnLayers inBoxes maxHeap ⟨false⟩ (Coords.onMesh (f2 14872305 14872320))
      (Coords.onMesh (f2 14872302 14872317)) []) (f := Option.isSome) (by decide +kernel)
  obtain ⟨p, rfl⟩ := Option.isSome_iff_exists.1 h5
  exact ⟨p, h4⟩

/-- Non-vacuity of the part that holds: the tip of the baked triangle. -/
theorem C87_example : ∃ m, Mesh.new sliverVertices sliverPolygons = .ok (.ok m) ∧
    m.unbake.pointInMesh inBoxes (Coords.onMesh (f2 14872302 14872317)) = .ok true := by
  obtain ⟨r, h1, h2⟩ := of_resIs (x := Mesh.new sliverVertices sliverPolygons) (f := fun r => match r with
    | .ok m => decide (m.layers.length = 1) && m.layers.all (fun l => decide (l.polygons = sliverPolygons ∧
        l.baked.all (fun b => decide (b.length = 1)))) &&
        decide (m.pointInMesh inBoxes (Coords.onMesh (f2 14872302 14872317)) = .ok true)
    | .error _ => false) (by decide +kernel)
  cases r with
  | error e => simp at h2
  | ok m =>
    simp only [Bool.and_eq_true, decide_eq_true_iff, List.all_eq_true] at h2
    obtain ⟨⟨h2, h3⟩, h4⟩ := h2
    refine ⟨m, h1, C87_unbake_partial inBoxes inBoxes_complete.inRange m (fun l hl => ?_) (by omega) _ h4⟩
    obtain ⟨h5, h6⟩ := h3 l hl
    refine ⟨by rw [h5]; decide, ?_, ?_⟩
    · rw [h5]
      decide
    · intro boxes hb
      rw [hb] at h6
      rw [h5, show sliverPolygons.length = 1 from rfl]
      simpa using h6

end Polyanya
