import Verif.Model.File
import Mathlib.Data.List.Forall2
/-
Specification of the text format `mesh 2` (`meshes/format.txt`), independent of the reader (C72).
-/

namespace Polyanya

variable {K : Type} [Scalar K]

/-- The text consists of these lines, each ended by a line feed, or a carriage return and a line feed; the last one may have no end. -/
inductive TextOf : List (List UInt8) → List UInt8 → Prop
  | nil : TextOf [] []
  | last (l : List UInt8) : l ≠ [] → TextOf [l] l
  | lf (l : List UInt8) {ls : List (List UInt8)} {bs : List UInt8} : TextOf ls bs → TextOf (l :: ls) (l ++ 10 :: bs)
  | crlf (l : List UInt8) {ls : List (List UInt8)} {bs : List UInt8} : TextOf ls bs → TextOf (l :: ls) (l ++ 13 :: 10 :: bs)

/-- ASCII without control characters. -/
def PlainText (l : List UInt8) : Prop := ∀ b ∈ l, 32 ≤ b ∧ b < 128

/-- A decimal numeral: one or more digits, most significant first. -/
def Numeral (w : List UInt8) (n : Nat) : Prop :=
  w ≠ [] ∧ (∀ b ∈ w, 48 ≤ b ∧ b ≤ 57) ∧ n = w.foldl (fun a b => 10 * a + (b.toNat - 48)) 0

/-- A natural number: a numeral, perhaps after `+`. -/
def NaturalWord (w : List UInt8) (n : Nat) : Prop := Numeral w n ∨ ∃ d, w = 43 :: d ∧ Numeral d n

/-- An integer: a natural number, or a numeral after `-`. -/
def IntegerWord (w : List UInt8) (z : Int) : Prop :=
  (∃ n : Nat, NaturalWord w n ∧ z = n) ∨ ∃ (d : List UInt8) (n : Nat), w = 45 :: d ∧ Numeral d n ∧ z = -(n : Int)

/-- The line consists of these words, separated by single spaces. -/
def WordsOf (line : List UInt8) (ws : List (List UInt8)) : Prop :=
  ws ≠ [] ∧ (∀ w ∈ ws, (32 : UInt8) ∉ w) ∧ line = List.intercalate [32] ws

/-- The line that announces `v` vertices and `p` polygons. -/
def CountsLine (line : List UInt8) (v p : Int) : Prop :=
  ∃ a b, WordsOf line [a, b] ∧ IntegerWord a v ∧ IntegerWord b p ∧
    -2 ^ 31 ≤ v ∧ v < 2 ^ 31 ∧ -2 ^ 31 ≤ p ∧ p < 2 ^ 31

/-- The word stands for the neighbour: an index, or anything else for no polygon. -/
def NeighbourWord (w : List UInt8) (id : UInt32) : Prop :=
  NaturalWord w id.toNat ∨ ((¬ ∃ n, NaturalWord w n ∧ n < 2 ^ 32) ∧ id = u32Max)

/-- The line stands for the vertex: coordinates, the number of neighbours (not looked at), and the neighbours. -/
def VertexLine [FloatText K] (line : List UInt8) (v : Vertex K) : Prop :=
  ∃ xs ys rest, WordsOf line (xs :: ys :: rest) ∧ FloatText.parse xs = some v.coords.x ∧
    FloatText.parse ys = some v.coords.y ∧ List.Forall₂ NeighbourWord (rest.drop 1) v.polygons ∧
    (v.isCorner = true ↔ u32Max ∈ v.polygons)

/-- The line stands for the polygon: the number of its corners, the corners, and numbers that say on which sides there is a
neighbour (`-1`: none). The polygon is one-way if there are such numbers and at most one of them is a neighbour. -/
def PolygonLine (line : List UInt8) (p : Polygon) : Prop :=
  ∃ n corners sides, ∃ cs ss : List Int, WordsOf line (n :: (corners ++ sides)) ∧
    NaturalWord n corners.length ∧ corners.length < 2 ^ 64 ∧
    List.Forall₂ IntegerWord corners cs ∧ List.Forall₂ IntegerWord sides ss ∧
    (∀ z ∈ cs ++ ss, -2 ^ 63 ≤ z ∧ z < 2 ^ 63) ∧
    p.vertices = cs.map (fun z => UInt32.ofNat (z % 2 ^ 32).toNat) ∧
    (p.isOneWay = true ↔ ss ≠ [] ∧ (ss.filter (· ≠ -1)).length ≤ 1)

/-! ### Documents -/

/-- The text of a header line. -/
def HeaderLine (l : List UInt8) : Prop := l = "mesh".toUTF8.toList ∨ l = "2".toUTF8.toList

/-- A vertex as documented in `format.txt`: coordinates, with their text, and neighbours, `none` for no polygon. -/
structure DocVertex (K : Type) where
  x : K
  y : K
  xText : List UInt8
  yText : List UInt8
  neighbours : List (Option UInt32)

/-- A polygon as documented: corners, and for each side the neighbour, `none` for no polygon. -/
structure DocPolygon where
  corners : List UInt32
  sides : List (Option UInt32)

/-- The word stands for an index or `-1`. -/
def IndexOrGap (w : List UInt8) : Option UInt32 → Prop
  | none => w = "-1".toUTF8.toList
  | some i => NaturalWord w i.toNat

/-- The line documented for a vertex. -/
def DocVertexLine [FloatText K] (line : List UInt8) (d : DocVertex K) : Prop :=
  FloatText.parse d.xText = some d.x ∧ FloatText.parse d.yText = some d.y ∧
  ∃ n ws, WordsOf line (d.xText :: d.yText :: n :: ws) ∧ NaturalWord n d.neighbours.length ∧
    List.Forall₂ IndexOrGap ws d.neighbours

/-- The line documented for a polygon. -/
def DocPolygonLine (line : List UInt8) (d : DocPolygon) : Prop :=
  d.sides.length = d.corners.length ∧ d.corners.length < 2 ^ 64 ∧
  ∃ n cs ss, WordsOf line (n :: (cs ++ ss)) ∧ NaturalWord n d.corners.length ∧
    List.Forall₂ (fun w i => IndexOrGap w (some i)) cs d.corners ∧ List.Forall₂ IndexOrGap ss d.sides

/-- The bytes are the documented text of these vertices and polygons. -/
def DocumentOf [FloatText K] (bytes : List UInt8) (vs : List (DocVertex K)) (ps : List DocPolygon) : Prop :=
  ∃ counts vls pls, TextOf ("mesh".toUTF8.toList :: "2".toUTF8.toList :: counts :: (vls ++ pls)) bytes ∧
    (∀ l ∈ counts :: (vls ++ pls), PlainText l) ∧ CountsLine counts vs.length ps.length ∧
    List.Forall₂ DocVertexLine vls vs ∧ List.Forall₂ DocPolygonLine pls ps

/-- What the vertex should be read as. -/
structure ReadsVertex (d : DocVertex K) (v : Vertex K) : Prop where
  coords : v.coords = ⟨d.x, d.y⟩
  neighbours : v.polygons = d.neighbours.map (fun n => n.getD u32Max)

/-- What the polygon should be read as: one-way if at most one side has a neighbour. -/
structure ReadsPolygon (d : DocPolygon) (p : Polygon) : Prop where
  corners : p.vertices = d.corners
  oneWay : p.isOneWay = true ↔ d.corners ≠ [] ∧ (d.sides.filter Option.isSome).length ≤ 1

end Polyanya
