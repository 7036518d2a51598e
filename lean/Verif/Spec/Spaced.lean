import Verif.Spec.Walk
import Verif.Spec.Unscaled
/-
When `detailed-layers` leaves out no entry of `path_with_layers`.
-/

namespace Polyanya

variable {F : Type} [Field F] [LinearOrder F] [Scalar F]

/-- The points that may be listed in `path_with_layers` on a straight line from the eye `r`: eyes (the start and the vertices), the
goal, and the points where the line of an edge is hit by the line from `r` through another eye or the goal. -/
def Listed (m : Mesh (Ext F)) (start goal r z : Vec2 F) : Prop :=
  Eye m start z ∨ z = goal ∨ ∃ A B w, IsEdgeAt m A B ∧ (Eye m start w ∨ w = goal) ∧ tri r w A ≠ tri r w B
    ∧ tri r w z = 0 ∧ tri A B z = 0

/-- Different points that may be listed one after the other are at least 1/100 apart. (An entry closer than this to the next one
is left out, and the reported length is then that of a polyline without this point.) -/
def Spaced (m : Mesh (Ext F)) (start goal : Vec2 F) : Prop :=
  ∀ r, Eye m start r → ∀ z z', Listed m start goal r z → Listed m start goal r z' → sqDist z z' < 1 / 10000 → z = z'

/-- In this build, lengths of paths between these points are lengths of polylines: always in the default build; with
`detailed-layers` if all layers have the default scale and no entry is left out. -/
def Cfg.Plain (cfg : Cfg) (m : Mesh (Ext F)) (start goal : Vec2 F) : Prop :=
  cfg.detailed = true → m.Unscaled ∧ Spaced m start goal

/-- The default build. -/
theorem Cfg.plain_default (m : Mesh (Ext F)) (start goal : Vec2 F) : Cfg.Plain ⟨false⟩ m start goal := nofun

end Polyanya
