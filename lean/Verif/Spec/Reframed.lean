import Verif.Spec.Moved
import Mathlib.Data.List.Forall2
/-
Specification vocabulary for C66: the same layer, described in other coordinates.
-/

namespace Polyanya

variable {K : Type} [Scalar K]

/-- The layer with `d` added to the coordinates of every vertex and subtracted from the offset: every vertex is where
it was, but the coordinates in the layer are different. (The baked boxes are not changed.) -/
def Layer.reframed (d : Vec2 K) (l : Layer K) : Layer K :=
  { l with
    vertices := l.vertices.map (fun v => { v with coords := v.coords + d })
    offset := l.offset - d }

/-- Changing the coordinates of a layer by `d` loses nothing. It holds in exact arithmetic for every finite `d`
(`frame_ext`). -/
structure Frame (d : Vec2 K) : Prop where
  shift : Shift d
  ltx : ∀ a b : K, (a +. d.x <. b +. d.x) = (a <. b)
  lty : ∀ a b : K, (a +. d.y <. b +. d.y) = (a <. b)
  lex : ∀ a b : K, (a +. d.x <=. b +. d.x) = (a <=. b)
  ley : ∀ a b : K, (a +. d.y <=. b +. d.y) = (a <=. b)
  place : ∀ c o : Vec2 K, (c + d) + (o - d) = c + o
  query : ∀ p o : Vec2 K, p - (o - d) = (p - o) + d

/-- The layers are the same in the world; the coordinates in the layer differ by some `d`. A baked layer is baked
anew: the candidates that the search tree yields for a point are the same, in the same order. -/
def SameInWorld (bvh : Bvh K) (l l' : Layer K) : Prop :=
  ∃ d, Frame d ∧ l' = { l.reframed d with baked := l'.baked } ∧
    ((l.baked = none ∧ l'.baked = none) ∨
      ∃ b b', l.baked = some b ∧ l'.baked = some b' ∧ ∀ p, bvh b' (p + d) = bvh b p)

/-- The meshes are the same in the world; each layer may be described in its own coordinates. -/
structure SameWorld (bvh : Bvh K) (m m' : Mesh K) : Prop where
  layers : List.Forall₂ (SameInWorld bvh) m.layers m'.layers
  searchDelta : m'.searchDelta = m.searchDelta
  searchSteps : m'.searchSteps = m.searchSteps

end Polyanya
