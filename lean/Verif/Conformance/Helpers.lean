import Verif.Spec.Binary32
import Verif.Model.Helpers
/-
The crate's own tests of `helpers.rs` and `primitives.rs`, run on the model with binary32 arithmetic.

These are tests of the *model*: the expected values were obtained by the crate from the real program, so they show that the
definitions behave as the program does on these inputs. They are no proofs of properties, and the manifest does not list them.
-/

namespace Polyanya.Conformance

open Polyanya

/-- `test_on_side` (`helpers.rs:191-243`). -/
example :
    side (f2 0 (1 / 2)) (f2 0 0, f2 1 0) = .left ∧
    side (f2 0 (-1 / 2)) (f2 0 0, f2 1 0) = .right ∧
    side (f2 1 0) (f2 0 0, f2 1 1) = .right ∧
    side (f2 0 1) (f2 0 0, f2 1 1) = .left ∧
    side (f2 2 2) (f2 0 0, f2 1 1) = .edge ∧
    side (f2 (5585231282 / 10 ^ 9) (53880110045 / 10 ^ 10)) (f2 (956 / 100) (742 / 100), f2 (154 / 100) (332 / 100)) = .edge ∧
    side (f2 (18266357 / 10 ^ 7) (12239377 / 10 ^ 7)) (f2 (1775 / 1000) (1275 / 1000), f2 (1775 / 1000) (1175 / 1000)) ≠ .edge := by
  decide +kernel

/-- `test_mirror` (`helpers.rs:246-262`); `==` on `Vec2` does not see the sign of zero. -/
example :
    (mirror (f2 1 0) (f2 0 0, f2 0 1)).beq (f2 (-1) 0) = true ∧ (mirror (f2 (-1) 0) (f2 0 0, f2 0 1)).beq (f2 1 0) = true := by
  decide +kernel

/-- `test_heuristic` (`helpers.rs:264-298`), bit for bit. -/
example :
    heuristic (f2 0 0) (f2 1 1) (f2 1 0, f2 0 1) = B32.sqrt (B32.ofRat 2) ∧
    heuristic (f2 0 0) (f2 2 (-1)) (f2 1 0, f2 0 1) = B32.add (B32.ofRat 1) (B32.sqrt (B32.ofRat 2)) ∧
    heuristic (f2 0 0) (f2 (-1) 2) (f2 1 0, f2 0 1) = B32.add (B32.ofRat 1) (B32.sqrt (B32.ofRat 2)) ∧
    heuristic (f2 0 0) (f2 1 (-1)) (f2 1 0, f2 0 1) = B32.ofRat 2 := by
  decide +kernel

/-- `test_line_intersect` and `test_line_intersect_colinear` (`helpers.rs:300-334`). -/
example :
    lineIntersectSegment (f2 0 (1 / 2), f2 (1 / 2) (1 / 2)) (f2 1 0, f2 1 1) = some (f2 1 (1 / 2)) ∧
    lineIntersectSegment (f2 0 0, f2 (1 / 2) (8 / 10)) (f2 1 0, f2 1 (2 / 10)) = none ∧
    lineIntersectSegment (f2 0 (8 / 10), f2 (1 / 2) 0) (f2 1 0, f2 1 (2 / 10)) = none ∧
    lineIntersectSegment (f2 0 (1 / 2), f2 (1 / 2) (1 / 2)) (f2 (-1) (1 / 2), f2 1 (1 / 2)) = none := by
  decide +kernel

/-- `edges_between` of `primitives.rs:152-170`: `double_edges_index()[start..=end]` against `circular_edges_index`. -/
example :
    ∀ a ∈ List.range 6, ∀ b ∈ List.range 8, max a 2 + 1 ≤ b →
      (Polygon.new [0, 1, 2, 3] false).circularEdgesIndex a b =
        .ok ((([(0, 1), (1, 2), (2, 3), (3, 0), (0, 1), (1, 2), (2, 3), (3, 0)] : List (UInt32 × UInt32)).drop a).take (b + 1 - a)) := by
  decide +kernel

end Polyanya.Conformance
