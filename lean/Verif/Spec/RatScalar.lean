import Verif.Model.Async
import Verif.Spec.Path
/-
A computable instance of the scalar operations, used only in examples and counterexamples: rationals,
with a rational approximation (6 decimals, exact on squares) of the square root, and no NaN.
-/

namespace Polyanya

/-- Integer square root by binary digits. -/
def isqrtAux (n : Nat) : Nat → Nat → Nat
  | 0, r => r
  | b + 1, r => if (r + 2 ^ b) * (r + 2 ^ b) ≤ n then isqrtAux n b (r + 2 ^ b) else isqrtAux n b r

/-- Integer square root of numbers below `2^128`. -/
def isqrt (n : Nat) : Nat := isqrtAux n 64 0

/-- Approximate square root of a rational. -/
def ratSqrt (q : Rat) : Rat := (isqrt (q * 1000000000000).floor.toNat : Nat) / (1000000 : Rat)

/-- A signed measure of the angle from `(a, b)` to `(c, d)`, increasing with the angle, from -2 to 2. -/
def ratAngle (a b c d : Rat) : Rat :=
  let dot := a * c + b * d
  let cross := a * d - b * c
  let size := (if dot < 0 then -dot else dot) + (if cross < 0 then -cross else cross)
  if size = 0 then 0 else (1 - dot / size) * (if cross < 0 then -1 else 1)

instance : Scalar Rat where
  add a b := a + b
  sub a b := a - b
  mul a b := a * b
  div a b := a / b
  neg a := -a
  sqrt := ratSqrt
  abs a := if a < 0 then -a else a
  -- crude stand-ins: the examples do not rely on trigonometry
  sin a := if a = 0 then 0 else 1
  cos a := if a = 0 then 1 else 0
  atan2 _ _ := 0
  signNeg a := decide (a < 0)
  lt a b := decide (a < b)
  le a b := decide (a ≤ b)
  eq a b := decide (a = b)
  isNan _ := false
  totalCmp a b := if a < b then .lt else if a = b then .eq else .gt
  lit m e := (m : Rat) / (10 ^ e : Nat)
  ofNat n := (n : Rat)
  toI32 a := a.floor
  tau := 6283185 / 1000000
  maxVal := 340282346638528859811704183484516925440
  angleTo := ratAngle

instance : NanLaws Rat where
  eq_self_or_nan _ := .inl (decide_eq_true rfl)
  nan_add_left _ _ h := nomatch h
  nan_add_right _ _ h := nomatch h
  nan_sub_left _ _ h := nomatch h
  nan_mul_left _ _ h := nomatch h
  nan_sqrt _ h := nomatch h

deriving instance DecidableEq for Except

/-- Decidable check of a computation's result, for concrete examples. -/
def resIs {α : Type} (x : Res α) (f : α → Bool) : Bool :=
  match x with
  | .ok a => f a
  | .error _ => false

theorem of_resIs {α : Type} {x : Res α} {f : α → Bool} (h : resIs x f = true) :
    ∃ a, x = .ok a ∧ f a = true := by
  cases x with
  | error e => simp [resIs] at h
  | ok a => exact ⟨a, rfl, h⟩

/-- A heap that pops the first maximal node. -/
def popMax {K : Type} [Scalar K] : List (SearchNode K) → Option (SearchNode K × List (SearchNode K))
  | [] => none
  | n :: q =>
    match popMax q with
    | none => some (n, q)
    | some (m, r) => if m.cmp n = .gt then some (m, n :: r) else some (n, q)

theorem popMax_perm {K : Type} [Scalar K] : ∀ (q : List (SearchNode K)) n r, popMax q = some (n, r) → (n :: r).Perm q
  | [], _, _, h => by simp [popMax] at h
  | a :: q, n, r, h => by
    simp only [popMax] at h
    split at h
    · simp only [Option.some.injEq, Prod.mk.injEq] at h
      obtain ⟨rfl, rfl⟩ := h; exact .refl _
    · rename_i m r' hm
      split at h
      · simp only [Option.some.injEq, Prod.mk.injEq] at h
        obtain ⟨rfl, rfl⟩ := h
        exact (List.Perm.swap a m r').trans ((popMax_perm q m r' hm).cons a)
      · simp only [Option.some.injEq, Prod.mk.injEq] at h
        obtain ⟨rfl, rfl⟩ := h; exact .refl _

def maxHeap {K : Type} [Scalar K] : Heap K where
  pop := popMax
  pop_nil := rfl
  pop_some := by
    intro q hq
    cases q with
    | nil => exact absurd rfl hq
    | cons a q =>
      simp only [popMax]
      split
      · exact ⟨_, _, rfl⟩
      · split <;> exact ⟨_, _, rfl⟩
  pop_perm := popMax_perm

def ratHeap : Heap Rat := maxHeap

/-- A bounding volume hierarchy that proposes every polygon. -/
def everyIndex {K : Type} : Bvh K := fun boxes _ => List.range boxes.length

def allBvh : Bvh Rat := everyIndex

def v2 (x y : Rat) : Vec2 Rat := ⟨x, y⟩

/-- An L-shaped mesh of three unit squares around the obstacle corner (1,1):
square 0 = [0,1]x[0,1], square 1 = [1,2]x[0,1], square 2 = [0,1]x[1,2]. -/
def exVertices : List (Vertex Rat) :=
  [ Vertex.new (v2 0 0) [0, u32Max], Vertex.new (v2 1 0) [0, 1, u32Max],
    Vertex.new (v2 2 0) [1, u32Max], Vertex.new (v2 0 1) [0, 2, u32Max],
    Vertex.new (v2 1 1) [0, 1, 2, u32Max], Vertex.new (v2 2 1) [1, u32Max],
    Vertex.new (v2 0 2) [2, u32Max], Vertex.new (v2 1 2) [2, u32Max] ]

def exPolygons : List Polygon :=
  [ Polygon.new [0, 1, 4, 3] false, Polygon.new [1, 2, 5, 4] false, Polygon.new [3, 4, 7, 6] false ]

def exLayer : Layer Rat := Layer.mk' exVertices exPolygons

def exMesh : Mesh Rat := Mesh.ofLayers [exLayer]

end Polyanya
