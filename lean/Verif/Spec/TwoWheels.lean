import Verif.Spec.Odometry

/-! # A vehicle with two wheels on one axle -/
set_option autoImplicit false

namespace Ecl.Spec.TwoWheels
open Ecl.Spec.Odometry

/-- The motion when the left wheel turns by `l` and the right one by `r`: wheels of radius `R`, `b` apart. -/
noncomputable def motion (R b l r : ℝ) : Place := ⟨R * (l + r) / 2, 0, R * (r - l) / b⟩

/-- The rate of the left wheel, and that of the right one, of a vehicle that goes forward by `v` and turns by `w`:
the left wheel goes `w * b / 2` less than the middle of the axle, the right one as much more. -/
noncomputable def leftRate (R b v w : ℝ) : ℝ := (v - w * b / 2) / R
noncomputable def rightRate (R b v w : ℝ) : ℝ := (v + w * b / 2) / R

/-- All turns of a journey together, whichever way they go. -/
noncomputable def turned (ms : List Place) : ℝ := (ms.map fun m => |m.h|).sum

end Ecl.Spec.TwoWheels
