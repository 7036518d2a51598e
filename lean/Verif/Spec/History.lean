import Verif.Spec.WellFormed
import Verif.Spec.Stitching
/-
Specification of C78: the meshes that are made from proper layers by any sequence of the library's own operations.
-/

namespace Polyanya

variable {K : Type} [Scalar K]

/-- A proper layer, not stitched to anything: its polygons are non-empty lists of existing vertices, every one of which
lists some polygon, and vertices list polygons by their number in the layer. -/
structure Layer.Proper (l : Layer K) : Prop extends l.Findable where
  size : l.vertices.length < 2 ^ 32
  corners : ∀ p ∈ l.polygons, ∀ v ∈ p.vertices, ∃ vx, l.vertices[v.toNat]? = some vx ∧ ∃ id ∈ vx.polygons, id ≠ u32Max
  refs : ∀ v ∈ l.vertices, ∀ id ∈ v.polygons, id ≠ u32Max → id.toNat < l.polygons.length

/-- How the layers of a mesh are connected at the moment. -/
inductive Phase where
  /-- not stitched -/
  | loose
  /-- stitched -/
  | joined
  /-- stitched, except for one layer, whose stitches were removed to replace it -/
  | opened (t : UInt8)
deriving DecidableEq

/-- One operation on a single layer, in any phase (`mesh.layers[i]` is public). -/
inductive LayerOp : Layer K → Layer K → Prop where
  /-- `Layer::bake` -/
  | bake {l l' : Layer K} : l.bake = .ok l' → LayerOp l l'
  /-- `Layer::unbake` -/
  | unbake (l : Layer K) : LayerOp l l.unbake
  /-- `Layer::remove_useless_vertices` -/
  | clean {l l' : Layer K} {b : Bool} : l.removeUseless = .ok (l', b) → LayerOp l l'
  /-- assigning the public fields `offset` and `scale` -/
  | place (l : Layer K) (offset scale : Vec2 K) : LayerOp l { l with offset := offset, scale := scale }

/-- The meshes made by any number of calls of the library's operations that returned, in an order the documentation
allows: polygons are merged, and layers stitched, only while the layers are not stitched; a layer is replaced, and
stitched again, after its stitches were removed. -/
inductive Built (geo : Geo K) (sorter : Sorter) : Phase → Mesh K → Prop where
  /-- any proper layers, and any settings -/
  | start {m : Mesh K} : m.layers.length ≤ 256 → (∀ l ∈ m.layers, l.Proper) → Built geo sorter .loose m
  /-- layers taken from other meshes -/
  | assemble {m : Mesh K} (source : Layer K → Mesh K) : m.layers.length ≤ 256 →
      (∀ l ∈ m.layers, Built geo sorter .loose (source l)) → (∀ l ∈ m.layers, l ∈ (source l).layers) →
      Built geo sorter .loose m
  /-- `Mesh::merge_polygons` -/
  | merge {m m' : Mesh K} {b : Bool} : Built geo sorter .loose m → m.mergePolygons geo = .ok (m', b) →
      Built geo sorter .loose m'
  /-- `Layer::merge_polygons` -/
  | mergeLayer {m : Mesh K} {i : Nat} {l l' : Layer K} {b : Bool} : Built geo sorter .loose m → m.layers[i]? = some l →
      l.mergePolygons geo = .ok (l', b) → Built geo sorter .loose { m with layers := m.layers.set i l' }
  /-- `Mesh::remove_useless_vertices` -/
  | clean {ph : Phase} {m m' : Mesh K} {b : Bool} : Built geo sorter ph m → m.removeUseless = .ok (m', b) →
      Built geo sorter ph m'
  /-- `Mesh::bake` -/
  | bake {ph : Phase} {m m' : Mesh K} : Built geo sorter ph m → m.bake = .ok m' → Built geo sorter ph m'
  /-- `Mesh::unbake` -/
  | unbake {ph : Phase} {m : Mesh K} : Built geo sorter ph m → Built geo sorter ph m.unbake
  /-- an operation on one layer -/
  | layer {ph : Phase} {m : Mesh K} {i : Nat} {l l' : Layer K} : Built geo sorter ph m → m.layers[i]? = some l →
      LayerOp l l' → Built geo sorter ph { m with layers := m.layers.set i l' }
  /-- `Mesh::set_search_delta` -/
  | delta {ph : Phase} {m m' : Mesh K} {d : K} : Built geo sorter ph m → m.setSearchDelta d = .ok m' → Built geo sorter ph m'
  /-- `Mesh::set_search_steps` -/
  | steps {ph : Phase} {m m' : Mesh K} {n : Nat} : Built geo sorter ph m → m.setSearchSteps n = .ok m' →
      Built geo sorter ph m'
  /-- `Mesh::stitch_at_vertices` -/
  | stitch {m m' : Mesh K} {s : StitchVertices} {oneWay : Bool} : Built geo sorter .loose m → StitchesExist m s →
      m.stitchAtVertices sorter s oneWay = .ok m' → Built geo sorter .joined m'
  /-- `Mesh::stitch_at_points` -/
  | stitchPoints {m m' : Mesh K} {s : StitchPoints K} {oneWay : Bool} : Built geo sorter .loose m →
      (∀ e ∈ s, e.1.1 ≠ e.1.2) → m.stitchAtPoints sorter s oneWay = .ok m' → Built geo sorter .joined m'
  /-- `Mesh::remove_stitches` -/
  | unstitch {m : Mesh K} : Built geo sorter .joined m → Built geo sorter .loose m.removeStitches
  /-- `Mesh::remove_stitches_to_layer` -/
  | unstitchLayer {m : Mesh K} (t : UInt8) : Built geo sorter .joined m → Built geo sorter (.opened t) (m.removeStitchesTo t)
  /-- replacing the layer whose stitches were removed by a layer of another mesh -/
  | replace {m m' : Mesh K} {t : UInt8} {l : Layer K} : Built geo sorter (.opened t) m → Built geo sorter .loose m' →
      l ∈ m'.layers → Built geo sorter (.opened t) { m with layers := m.layers.set t.toNat l }
  /-- `Mesh::restitch_layer_at_vertices` -/
  | restitch {m m' : Mesh K} {t : UInt8} {s : StitchVertices} {oneWay : Bool} : Built geo sorter (.opened t) m →
      StitchesExist m s → m.restitchAtVertices sorter t s oneWay = .ok m' → Built geo sorter .joined m'
  /-- `Mesh::restitch_layer_at_points` -/
  | restitchPoints {m m' : Mesh K} {t : UInt8} {s : StitchPoints K} {oneWay : Bool} : Built geo sorter (.opened t) m →
      (∀ e ∈ s, e.1.1 ≠ e.1.2) → m.restitchAtPoints sorter t s oneWay = .ok m' → Built geo sorter .joined m'

end Polyanya
