import Verif.Model.Basic
/-
Model of `src/helpers.rs`.
-/

namespace Polyanya

variable {K : Type} [Scalar K]

/-- `EdgeSide` (`instance.rs:40-44`). -/
inductive EdgeSide where
  | left
  | right
  | edge
deriving DecidableEq, Repr

/-- `helpers::EPSILON = 1e-4` (`helpers.rs:8`). -/
def epsilon : K := Scalar.lit 1 4

/-- `Vec2Helper::side` (`helpers.rs:21-31`). -/
def side (p : Vec2 K) (line : Vec2 K × Vec2 K) : EdgeSide :=
  let localPoint := p - line.1
  let localLine := line.2 - line.1
  let x := localLine.perpDot localPoint
  if Scalar.abs x <. epsilon then .edge
  else if Scalar.lit 0 0 <. x then .left
  else .right

/-- `Vec2Helper::mirror` (`helpers.rs:36-43`). -/
def mirror (p : Vec2 K) (line : Vec2 K × Vec2 K) : Vec2 K :=
  let localPoint := p - line.1
  let localLine := line.2 - line.1
  let localReflect := (Vec2.lsmul (Scalar.lit 2 0) (localPoint.projectOnto localLine)) - localPoint
  line.1 + localReflect

/-- `helpers::min` (`helpers.rs:74-80`). -/
def fmin (x y : K) : K := if x <. y then x else y

/-- `helpers::max` (`helpers.rs:98-104`). -/
def fmax (x y : K) : K := if y <. x then x else y

/-- `(lo..=hi).contains(&x)`. -/
def inRange (lo hi x : K) : Bool := (lo <=. x) && (x <=. hi)

/-- `Vec2Helper::on_segment` (`helpers.rs:48-55`). -/
def onSegment (p : Vec2 K) (seg : Vec2 K × Vec2 K) : Bool :=
  inRange (fmin seg.1.x seg.2.x) (fmax seg.1.x seg.2.x) p.x
    && inRange (fmin seg.1.y seg.2.y) (fmax seg.1.y seg.2.y) p.y
    && (side p seg == .edge)

/-- `intersection_time` (`helpers.rs:158-167`). -/
def intersectionTime (line seg : Vec2 K × Vec2 K) : K :=
  let localLine := line.1 - line.2
  (line.1 - seg.1).perpDot localLine /. localLine.perpDot (seg.1 - seg.2)

/-- The goal, mirrored across the interval when it is on the same side as the root
(`helpers.rs:111-115` and `136-140`). -/
def mirroredGoal (root goal : Vec2 K) (interval : Vec2 K × Vec2 K) : Vec2 K :=
  if side root interval = side goal interval then mirror goal interval else goal

/-- `heuristic` (`helpers.rs:109-130`). -/
def heuristic (root goal : Vec2 K) (interval : Vec2 K × Vec2 K) : K :=
  let goal := mirroredGoal root goal interval
  if root.beq interval.1 || root.beq interval.2 then root.distance goal
  else
    let x := intersectionTime (root, goal) interval
    if x <. Scalar.lit 0 0 then root.distance interval.1 +. interval.1.distance goal
    else if Scalar.lit 1 0 <. x then root.distance interval.2 +. interval.2.distance goal
    else root.distance goal

/-- `turning_point` (`helpers.rs:135-151`). -/
def turningPoint (root goal : Vec2 K) (interval : Vec2 K × Vec2 K) : Option (Vec2 K) :=
  let goal := mirroredGoal root goal interval
  if root.beq interval.1 then none
  else if side goal (root, interval.1) = .right then some interval.1
  else if side goal (root, interval.2) = .left then some interval.2
  else none

/-- `line_intersect_segment` (`helpers.rs:172-180`). -/
def lineIntersectSegment (line seg : Vec2 K × Vec2 K) : Option (Vec2 K) :=
  let t := intersectionTime line seg
  if !(inRange (Scalar.neg epsilon) (Scalar.lit 1 0 +. epsilon) t) || Scalar.isNan t then none
  else some (seg.1 + Vec2.lsmul t (seg.2 - seg.1))

end Polyanya
