import Verif.Model.Mesh
import Mathlib.Data.List.SplitOn
/-
Model of `src/input/polyanya_file.rs`: reading and writing the format `mesh 2`, on bytes.
-/

namespace Polyanya

variable {K : Type} [Scalar K]

/-- `PolyanyaFile` (`polyanya_file.rs:11-16`). -/
structure PolyanyaFile (K : Type) where
  vertices : List (Vertex K)
  polygons : List Polygon
deriving DecidableEq, Repr

/-- Text form of floats: `format!("{:.06}", x)` and `str::parse::<f32>`, left abstract. -/
class FloatText (K : Type) where
  fmt6 : K → List UInt8
  parse : List UInt8 → Option K

/-! ### Integers -/

/-- Value of a list of ASCII digits after `acc`; `none` if something else is in it. -/
def digitsValue (acc : Nat) : List UInt8 → Option Nat
  | [] => some acc
  | b :: bs => if 48 ≤ b ∧ b ≤ 57 then digitsValue (acc * 10 + (b.toNat - 48)) bs else none

/-- `from_str_radix(_, 10)` of an integer type with the range `lo..=hi` (Rust `core::num`): the empty string and a
sign alone are errors, `+` may precede the digits, `-` only if the type is signed. -/
def parseInt (signed : Bool) (lo hi : Int) (bs : List UInt8) : Option Int := do
  let n ← match bs with
    | [] => none
    | [b] => (digitsValue 0 [b]).map Int.ofNat
    | b :: rest =>
      if b = 43 then (digitsValue 0 rest).map Int.ofNat
      else if b = 45 ∧ signed then (digitsValue 0 rest).map (fun n => -(n : Int))
      else (digitsValue 0 (b :: rest)).map Int.ofNat
  if lo ≤ n ∧ n ≤ hi then some n else none

/-- `parse::<u32>()`. -/
def parseU32 (bs : List UInt8) : Option UInt32 := (parseInt false 0 (2 ^ 32 - 1) bs).map (fun n => UInt32.ofNat n.toNat)
/-- `parse::<usize>()` (64 bits). -/
def parseUsize (bs : List UInt8) : Option Nat := (parseInt false 0 (2 ^ 64 - 1) bs).map Int.toNat
/-- `parse::<isize>()` (64 bits). -/
def parseIsize (bs : List UInt8) : Option Int := parseInt true (-2 ^ 63) (2 ^ 63 - 1) bs
/-- `parse::<i32>()`: the type of `nb_vertices` and `nb_polygons`, by integer fallback. -/
def parseI32 (bs : List UInt8) : Option Int := parseInt true (-2 ^ 31) (2 ^ 31 - 1) bs

/-- Decimal digits of `n` before `acc`. Fuel: the number of digits is at most `n + 1`. -/
def natBytesAux : Nat → Nat → List UInt8 → List UInt8
  | 0, _, acc => acc
  | fuel + 1, n, acc =>
    if n < 10 then UInt8.ofNat (48 + n) :: acc
    else natBytesAux fuel (n / 10) (UInt8.ofNat (48 + n % 10) :: acc)

/-- `n.to_string()` of an unsigned integer. -/
def natBytes (n : Nat) : List UInt8 := natBytesAux (n + 1) n []

/-! ### Lines -/

/-- Is the sequence of bytes valid UTF-8? (`BufRead::lines` fails otherwise.) -/
def utf8Ok : List UInt8 → Bool
  | [] => true
  | a :: rest =>
    if a < 0x80 then utf8Ok rest
    else match rest with
      | [] => false
      | b :: rest =>
        if 0xC2 ≤ a ∧ a ≤ 0xDF then decide (0x80 ≤ b ∧ b ≤ 0xBF) && utf8Ok rest
        else match rest with
          | [] => false
          | c :: rest =>
            if 0xE0 ≤ a ∧ a ≤ 0xEF then
              decide ((if a = 0xE0 then (0xA0 : UInt8) else 0x80) ≤ b ∧ b ≤ (if a = 0xED then (0x9F : UInt8) else 0xBF) ∧
                0x80 ≤ c ∧ c ≤ 0xBF) && utf8Ok rest
            else match rest with
              | [] => false
              | d :: rest =>
                decide (0xF0 ≤ a ∧ a ≤ 0xF4 ∧
                  (if a = 0xF0 then (0x90 : UInt8) else 0x80) ≤ b ∧ b ≤ (if a = 0xF4 then (0x8F : UInt8) else 0xBF) ∧
                  0x80 ≤ c ∧ c ≤ 0xBF ∧ 0x80 ≤ d ∧ d ≤ 0xBF) && utf8Ok rest

/-- Drops a final carriage return. -/
def chomp (l : List UInt8) : List UInt8 := if l.getLast? = some 13 then l.dropLast else l

/-- `BufRead::lines` (Rust `std::io`), with the bytes of the current line in `cur`: lines end in `\n` or `\r\n`; a last
line without end is a line if it is not empty. -/
def linesFrom (cur : List UInt8) : List UInt8 → List (List UInt8)
  | [] => if cur = [] then [] else [cur]
  | b :: bs => if b = 10 then chomp cur :: linesFrom [] bs else linesFrom (cur ++ [b]) bs

/-- `str::split_once(' ')`. -/
def splitOnce (bs : List UInt8) : Option (List UInt8 × List UInt8) :=
  if 32 ∈ bs then some (bs.takeWhile (· != 32), (bs.dropWhile (· != 32)).tail) else none

/-- `Option::unwrap` and `Result::unwrap`. -/
def unwrap {α : Type} : Option α → Res α
  | some a => .ok a
  | none => .error .panic

/-! ### Reading -/

/-- The local variables of `from_bytes` (`polyanya_file.rs:32-38`). -/
structure ReadState (K : Type) where
  file : PolyanyaFile K
  nbVertices : Int
  nbPolygons : Int
  phase : Nat

/-- The vertex on a line (`polyanya_file.rs:56-63`). -/
def readVertex [FloatText K] (line : List UInt8) : Res (Vertex K) :=
  match line.splitOn 32 with
  | xs :: ys :: rest => do
    let x ← unwrap (FloatText.parse xs)
    let y ← unwrap (FloatText.parse ys)
    .ok (Vertex.new ⟨x, y⟩ ((rest.drop 1).map (fun v => (parseU32 v).getD u32Max)))
  | _ => .error .panic

/-- The polygon on a line (`polyanya_file.rs:72-74`). -/
def readPolygon (line : List UInt8) : Res Polygon :=
  match line.splitOn 32 with
  | ns :: rest => do
    let n ← unwrap (parseUsize ns)
    let data ← rest.mapM (fun v => unwrap (parseIsize v))
    Polygon.using n data
  | [] => .error .panic

/-- The last part of the loop body (`polyanya_file.rs:69-79`). -/
def readPhase2 (s : ReadState K) (line : List UInt8) : Res (ReadState K) :=
  if 0 < s.nbPolygons then do
    let p ← readPolygon line
    .ok { s with nbPolygons := s.nbPolygons - 1, file := { s.file with polygons := s.file.polygons ++ [p] } }
  else .error .panic

/-- One iteration of the loop of `from_bytes` (`polyanya_file.rs:39-80`). -/
def readLine [FloatText K] (s : ReadState K) (line : List UInt8) : Res (ReadState K) :=
  if utf8Ok line = false then .error .panic
  else if s.phase = 0 then
    if line = [109, 101, 115, 104] ∨ line = [50] then .ok s
    else do
      let ab ← unwrap (splitOnce line)
      let a ← unwrap (parseI32 ab.1)
      let b ← unwrap (parseI32 ab.2)
      .ok { s with nbVertices := a, nbPolygons := b, phase := 1 }
  else if s.phase = 1 then
    if 0 < s.nbVertices then do
      let v ← readVertex line
      .ok { s with nbVertices := s.nbVertices - 1, file := { s.file with vertices := s.file.vertices ++ [v] } }
    else readPhase2 { s with phase := 2 } line
  else readPhase2 s line

/-- `PolyanyaFile::from_bytes` (`polyanya_file.rs:32-82`). -/
def PolyanyaFile.fromBytes [FloatText K] (bytes : List UInt8) : Res (PolyanyaFile K) := do
  let s ← (linesFrom [] bytes).foldlM readLine
    { file := { vertices := [], polygons := [] }, nbVertices := 0, nbPolygons := 0, phase := 0 }
  .ok s.file

/-! ### Writing -/

/-- `slice.join(" ")`. -/
def joinSpaces (l : List (List UInt8)) : List UInt8 := [(32 : UInt8)].intercalate l

/-- The line of a vertex (`polyanya_file.rs:105-120`). -/
def vertexLine [FloatText K] (v : Vertex K) : List UInt8 :=
  FloatText.fmt6 v.coords.x ++ [32] ++ FloatText.fmt6 v.coords.y ++ [32] ++ natBytes v.polygons.length ++ [32] ++
    joinSpaces (v.polygons.map (fun n => natBytes n.toNat)) ++ [10]

/-- The line of a polygon (`polyanya_file.rs:122-136`). -/
def polygonLine (p : Polygon) : List UInt8 :=
  natBytes p.vertices.length ++ [32] ++ joinSpaces (p.vertices.map (fun v => natBytes v.toNat)) ++ [10]

/-- `PolyanyaFile::to_bytes` (`polyanya_file.rs:96-138`). -/
def PolyanyaFile.toBytes [FloatText K] (f : PolyanyaFile K) : List UInt8 :=
  [109, 101, 115, 104, 10] ++ [50, 10] ++
    (natBytes f.vertices.length ++ [32] ++ natBytes f.polygons.length ++ [10]) ++
    f.vertices.flatMap vertexLine ++ f.polygons.flatMap polygonLine

/-- `TryFrom<PolyanyaFile> for Mesh` (`polyanya_file.rs:141-147`). -/
def PolyanyaFile.toMesh (f : PolyanyaFile K) : Res (Except MeshError (Mesh K)) := Mesh.new f.vertices f.polygons

/-- `From<Mesh> for PolyanyaFile` (`polyanya_file.rs:149-157`): the last layer. -/
def PolyanyaFile.ofMesh (m : Mesh K) : Res (PolyanyaFile K) := do
  let l ← unwrap m.layers.getLast?
  .ok { vertices := l.vertices, polygons := l.polygons }

end Polyanya
