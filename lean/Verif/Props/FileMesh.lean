import Verif.Props.File
import Verif.Props.Islands
/-
C29: files and meshes.
-/

namespace Polyanya

variable {K : Type} [Scalar K]

/-- **C29** (`Mesh::try_from(file)` and `PolyanyaFile::from(mesh)`): a mesh made from a file has one layer, with the vertices and the
polygons of the file, without offset or scale; making a file of it gives the file back. A file without vertices or polygons, or
with too many polygons, is refused. -/
theorem C29_mesh (f : PolyanyaFile K) :
    (∀ m, f.toMesh = .ok (.ok m) → PolyanyaFile.ofMesh m = .ok f ∧ ∃ l, m.layers = [l] ∧ l.vertices = f.vertices ∧
      l.polygons = f.polygons ∧ l.offset = ⟨Scalar.lit 0 0, Scalar.lit 0 0⟩ ∧ l.scale = ⟨Scalar.lit 1 0, Scalar.lit 1 0⟩) ∧
    (f.toMesh = .ok (.error .emptyMesh) ↔ f.vertices = [] ∨ f.polygons = []) ∧
    (f.toMesh = .ok (.error .tooManyPolygons) ↔ f.vertices ≠ [] ∧ f.polygons ≠ [] ∧ f.polygons.length > 2 ^ 24 - 1) ∧
    (f.vertices ≠ [] → f.polygons ≠ [] → (Layer.mk' f.vertices f.polygons : Layer K).Consistent →
      ∃ m, f.toMesh = .ok (.ok m)) := by
  have hnew := C43_mesh_new f.vertices f.polygons
  have herr := C43_layer_new_errors f.vertices f.polygons
  unfold PolyanyaFile.toMesh
  refine ⟨fun m hm => ?_, ?_, ?_, fun h1 h2 h3 => ?_⟩
  · obtain ⟨l, hl, rfl⟩ := (hnew.2 m).1 hm
    obtain ⟨e1, e2, e3, e4, -⟩ := C43_layer_new_keeps _ _ _ hl
    refine ⟨?_, l, rfl, e1, e2, e3, e4⟩
    simp [PolyanyaFile.ofMesh, unwrap, e1, e2]
  · rw [hnew.1]; exact herr.1
  · rw [hnew.1]; exact herr.2.1
  · obtain ⟨l, hl⟩ := C43_layer_new_succeeds _ _ h1 h2 h3
    exact ⟨_, (hnew.2 _).2 ⟨l, hl, rfl⟩⟩

/-- **C29**: a file made from a mesh has the vertices and the polygons of its last layer; a mesh without layers panics. -/
theorem C29_of_mesh (m : Mesh K) :
    (m.layers = [] → PolyanyaFile.ofMesh m = .error .panic) ∧
    ∀ ls l, m.layers = ls ++ [l] → PolyanyaFile.ofMesh m = .ok { vertices := l.vertices, polygons := l.polygons } := by
  refine ⟨fun h => ?_, fun ls l h => ?_⟩
  · simp [PolyanyaFile.ofMesh, h, unwrap]
  · simp [PolyanyaFile.ofMesh, h, unwrap]

/-- Non-vacuity: the file of the example mesh becomes a mesh. -/
example : ∃ m, (PolyanyaFile.mk exVertices exPolygons : PolyanyaFile Rat).toMesh = .ok (.ok m) :=
  (C29_mesh (PolyanyaFile.mk exVertices exPolygons)).2.2.2 (by simp [exVertices]) (by simp [exPolygons])
    (consistent_of_check (l := exLayer) (by decide +kernel))

end Polyanya
