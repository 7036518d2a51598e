import Verif.Model.File
/-
Specification of the file format functions (C29, C30, C49).
-/

namespace Polyanya

variable {K : Type} [Scalar K]

/-- What is assumed of the text form of a float with six decimals: it is made of visible ASCII characters, it can be read
back, and the number read back has the same text form. -/
structure Printable [FloatText K] (x : K) : Prop where
  visible : ∀ b ∈ FloatText.fmt6 x, 32 < b ∧ b < 128
  parses : ∃ y : K, FloatText.parse (FloatText.fmt6 x) = some y ∧ FloatText.fmt6 y = FloatText.fmt6 x

/-- Both coordinates of every vertex are printable. -/
def PrintableFile [FloatText K] (f : PolyanyaFile K) : Prop :=
  ∀ v ∈ f.vertices, Printable v.coords.x ∧ Printable v.coords.y

/-- `y` is the number read back from `x` written with six decimals. -/
def SixDecimals [FloatText K] (x y : K) : Prop := FloatText.parse (FloatText.fmt6 x) = some y

/-- What a vertex becomes by writing and reading it. -/
structure VertexBack [FloatText K] (v v' : Vertex K) : Prop where
  x : SixDecimals v.coords.x v'.coords.x
  y : SixDecimals v.coords.y v'.coords.y
  neighbours : v'.polygons = if v.polygons = [] then [u32Max] else v.polygons
  corner : v'.isCorner = true ↔ u32Max ∈ v'.polygons

/-- The sizes of a file that the format can hold. -/
structure FileSize (f : PolyanyaFile K) : Prop where
  vertices : f.vertices.length < 2 ^ 31
  polygons : f.polygons.length < 2 ^ 31
  corners : ∀ p ∈ f.polygons, p.vertices.length < 2 ^ 64

/-- The number of vertices and polygons announced by the bytes: those on the first line that is neither `mesh` nor `2`. -/
def Announces (bytes : List UInt8) (v p : Int) (body : List (List UInt8)) : Prop :=
  ∃ head line ab, linesFrom [] bytes = head ++ line :: body ∧
    (∀ l ∈ head, l = [109, 101, 115, 104] ∨ l = [50]) ∧ ¬ (line = [109, 101, 115, 104] ∨ line = [50]) ∧
    splitOnce line = some ab ∧ parseI32 ab.1 = some v ∧ parseI32 ab.2 = some p

end Polyanya
