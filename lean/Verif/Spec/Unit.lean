import Verif.Spec.Shortest
/-
Specification vocabulary for C90: the same mesh, measured in another unit of length.
-/

namespace Polyanya

/-- The point, in a unit in which lengths are `k` times as large. -/
def Vec2.times (k : ℝ) (x : Vec2 ℝ) : Vec2 ℝ := ⟨k * x.x, k * x.y⟩

/-- The vertices of the layer `l'` are those of `l`, at `k` times the place (offset of the layer included), with the same
neighbours and corner flags; the polygons are the same. Bounding boxes and islands are not compared. -/
structure Layer.InUnit (k : ℝ) (l l' : Layer (Ext ℝ)) : Prop where
  polygons : l'.polygons = l.polygons
  vertices : List.Forall₂ (fun v v' => v'.polygons = v.polygons ∧ v'.isCorner = v.isCorner ∧
    ∀ x : Vec2 ℝ, v.coords + l.offset = x.fin ↔ v'.coords + l'.offset = (x.times k).fin) l.vertices l'.vertices

/-- `m'` is the mesh `m` in a unit in which all lengths are `k` times as large. -/
def Mesh.InUnit (k : ℝ) (m m' : Mesh (Ext ℝ)) : Prop := List.Forall₂ (Layer.InUnit k) m.layers m'.layers

/-- The number, in a unit in which lengths are `k` times as large. -/
def Ext.times (k : ℝ) : Ext ℝ → Ext ℝ
  | .fin x => .fin (k * x)
  | a => a

/-- The layer in a unit in which lengths are `k` times as large, without bounding boxes. -/
def Layer.times (k : ℝ) (l : Layer (Ext ℝ)) : Layer (Ext ℝ) :=
  { l with
    vertices := l.vertices.map fun v => { v with coords := ⟨v.coords.x.times k, v.coords.y.times k⟩ }
    offset := ⟨l.offset.x.times k, l.offset.y.times k⟩
    baked := none }

/-- The mesh in a unit in which lengths are `k` times as large, without bounding boxes. -/
def Mesh.times (k : ℝ) (m : Mesh (Ext ℝ)) : Mesh (Ext ℝ) :=
  { m with layers := m.layers.map (Layer.times k), searchDelta := m.searchDelta.times k }

end Polyanya
