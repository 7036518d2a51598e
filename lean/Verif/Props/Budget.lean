import Verif.Props.Part
import Verif.Props.Unbaked
/-
C89: the budget of `path` (ten steps for every polygon) can be too small: a future finds a path that `path` does not
find, and an unconnected layer more makes `path` find it.
-/

namespace Polyanya

section
variable {K : Type} [Scalar K]

/-- Polling a future at most `k` times. -/
def runPolls (bvh : Bvh K) (heap : Heap K) (cfg : Cfg) (m : Mesh K) : Nat → FuturePath K → Option (Option (Path K))
  | 0, _ => none
  | k + 1, f =>
    match f.poll bvh heap cfg m with
    | .ok (.ready r, _) => some r
    | .ok (.pending _, g) => runPolls bvh heap cfg m k g
    | .error _ => none

theorem resolvesIn_of_run {bvh : Bvh K} {heap : Heap K} {cfg : Cfg} {m : Mesh K} {r : Option (Path K)} : ∀ (k : Nat) (f : FuturePath K),
    runPolls bvh heap cfg m k f = some r → ∃ j ≤ k, ResolvesIn bvh heap cfg m j f r := by
  intro k
  induction k with
  | zero => intro f h; cases h
  | succ k ih =>
    intro f h
    unfold runPolls at h
    split at h
    · rename_i hp
      cases h
      exact ⟨1, by omega, .ready hp⟩
    · rename_i hp
      obtain ⟨j, h1, h2⟩ := ih _ h
      exact ⟨j + 1, by omega, .pending hp h2⟩
    · cases h

theorem ResolvesIn.out {bvh : Bvh K} {heap : Heap K} {cfg : Cfg} {m : Mesh K} {r : Option (Path K)} {k : Nat} {f : FuturePath K}
    (h : ResolvesIn bvh heap cfg m k f r) : Resolves bvh heap cfg m f r := by
  induction h with
  | ready h => exact .ready h
  | pending h _ ih => exact .pending h ih

end

/-- Two rectangles that share a side on which there are 35 more vertices, and a quadrilateral above them, which is
reached through the narrow passage on the right. -/
def combVertices : List (Vertex B32) :=
  (List.range 37).map (fun i => Vertex.new (f2 i 1) (if i = 0 ∨ i = 36 then [0, 1, u32Max] else [0, 1])) ++
  [ Vertex.new (f2 0 0) [0, u32Max], Vertex.new (f2 36 0) [0, u32Max], Vertex.new (f2 36 2) [1, 2, u32Max],
    Vertex.new (f2 35 2) [2, 1, u32Max], Vertex.new (f2 0 2) [1, u32Max], Vertex.new (f2 36 4) [2, u32Max],
    Vertex.new (f2 0 4) [2, u32Max], Vertex.new (f2 0 3) [2, u32Max] ]

def combPolygons : List Polygon :=
  [ Polygon.new ([37, 38] ++ (List.range 37).reverse.map UInt32.ofNat) true,
    Polygon.new ((List.range 37).map UInt32.ofNat ++ [39, 40, 41]) false,
    Polygon.new [40, 39, 42, 43, 44] true ]

def combMesh : Mesh B32 := Mesh.ofLayers [Layer.mk' combVertices combPolygons]

def combStart : Vec2 B32 := f2 18 (1/2)
def combGoal : Vec2 B32 := f2 18 (7/2)

set_option maxHeartbeats 0 in
theorem comb_path : combMesh.path inBoxes maxHeap ⟨false⟩ (Coords.onMesh combStart) (Coords.onMesh combGoal) = .ok none := by
  decide +kernel

set_option maxHeartbeats 0 in
theorem comb_run : (runPolls inBoxes maxHeap ⟨false⟩ combMesh 13 (Mesh.getPath combStart combGoal)).map
    (Option.map (·.path)) = some (some [f2 35 2, combGoal]) := by
  decide +kernel

/-- C89 is false, with f32 numbers: `path` finds no path in a mesh of three convex polygons, where a future resolves to
a path with one bend, after at most 13 polls: the 36 passages from the first polygon to the second one all look better
than the way is, and use up the 30 steps. -/
theorem C89_false : combMesh.path inBoxes maxHeap ⟨false⟩ (Coords.onMesh combStart) (Coords.onMesh combGoal) = .ok none ∧
    ∃ k p, k ≤ 13 ∧ ResolvesIn inBoxes maxHeap ⟨false⟩ combMesh k (Mesh.getPath combStart combGoal) (some p) ∧
      p.path = [f2 35 2, combGoal] := by
  refine ⟨comb_path, ?_⟩
  obtain ⟨r, h1, h2⟩ := Option.map_eq_some_iff.1 comb_run
  obtain ⟨p, rfl, h2⟩ := Option.map_eq_some_iff.1 h2
  obtain ⟨k, h3, h4⟩ := resolvesIn_of_run 13 _ h1
  exact ⟨k, p, h3, h4, Option.some.inj h2⟩

namespace BudgetDec
deriving instance DecidableEq for Layer
deriving instance DecidableEq for Mesh
end BudgetDec
open BudgetDec

set_option maxHeartbeats 0 in
theorem comb_new : ∃ r, Mesh.new combVertices combPolygons = .ok r ∧ (match r with
    | .ok m => decide (m.unbake = combMesh) &&
        decide (m.path inBoxes maxHeap ⟨false⟩ (Coords.onMesh combStart) (Coords.onMesh combGoal) = .ok none)
    | .error _ => false) = true :=
  of_resIs (by decide +kernel)

/-- The mesh is the one that `Mesh::new` makes, without the baked data; with them, `path` finds no path either. -/
theorem C89_false_new : ∃ m, Mesh.new combVertices combPolygons = .ok (.ok m) ∧ m.unbake = combMesh ∧
    m.path inBoxes maxHeap ⟨false⟩ (Coords.onMesh combStart) (Coords.onMesh combGoal) = .ok none := by
  obtain ⟨r, h1, h2⟩ := comb_new
  cases r with
  | error e => simp at h2
  | ok m => exact ⟨m, h1, by simpa using h2⟩

theorem comb_has (id : UInt32) (h : id = 0 ∨ id = 1 ∨ id = 2) : combMesh.Has id := by
  rcases h with rfl | rfl | rfl
  · exact ⟨_, _, rfl, rfl⟩
  · exact ⟨_, _, rfl, rfl⟩
  · exact ⟨_, _, rfl, rfl⟩

theorem comb_lists : combMesh.ListsPolygons := by
  intro id l p hp v hv x hx q hq
  have hl : l = Layer.mk' combVertices combPolygons := by
    have := List.mem_of_getElem? hp.1
    simpa [combMesh, Mesh.ofLayers] using this
  subst hl
  have hall : ∀ x ∈ combVertices, ∀ q ∈ x.polygons, q = u32Max ∨ q = 0 ∨ q = 1 ∨ q = 2 := by decide +kernel
  rcases hall x (List.mem_of_getElem? hx) q hq with h | h
  · exact .inl h
  · exact .inr (comb_has q h)

theorem lookups_of {m : Mesh B32} {bvh : Bvh B32} {pt : Vec2 B32} {id : UInt32} (h : id ≠ u32Max)
    (h1 : m.getPointLocation bvh (Coords.onMesh pt) = .ok id) (h2 : m.endpointPolygon bvh (Coords.onMesh pt) = .ok (some id)) :
    LookupsAgree m bvh pt := by
  refine ⟨id, h1, .inl ⟨h, ?_⟩⟩
  unfold Mesh.endpointPolygon at h2
  rw [if_neg (by simp [Coords.onMesh])] at h2
  obtain ⟨r, h3, h4⟩ := bind_eq_ok.1 h2
  cases r with
  | none => cases h4
  | some c =>
    simp only [Option.map_some, Except.ok.injEq, Option.some.injEq] at h4
    exact ⟨c, h3, h4⟩

/-- The same query, when a layer with one triangle far away, which is not stitched, is in the mesh too: `path` finds it. -/
theorem C89_unconnected_layer : ∃ p, p.path = [f2 35 2, combGoal] ∧
    (combMesh.withLayers [Layer.mk' sliverVertices sliverPolygons]).path inBoxes maxHeap ⟨false⟩ (Coords.onMesh combStart)
      (Coords.onMesh combGoal) = .ok (some p) := by
  obtain ⟨-, k, p, hk, hr, hp⟩ := C89_false
  refine ⟨p, hp, ?_⟩
  refine C89_budget_partial inBoxes inBoxes (heap := maxHeap) maxHeap_byCost combMesh [Layer.mk' sliverVertices sliverPolygons]
    (by decide +kernel) comb_lists ?_ ?_ combStart combGoal 0 2 (comb_has 0 (by simp)) (comb_has 2 (by simp))
    (by decide +kernel) (by decide +kernel) (by decide +kernel) (by decide +kernel) ?_ ?_ k (some p) hr ?_
  · unfold Mesh.NoIslands; decide +kernel
  · decide
  · exact lookups_of (id := 0) (by decide) (by decide +kernel) (by decide +kernel)
  · exact lookups_of (id := 2) (by decide) (by decide +kernel) (by decide +kernel)
  · have : (combMesh.withLayers [Layer.mk' sliverVertices sliverPolygons]).polygonTotal = 4 := by decide
    omega

end Polyanya
