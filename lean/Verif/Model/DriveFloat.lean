import Verif.Model.AngleFloat
import Verif.Model.DifferentialDrive
import Verif.Model.PoseFloat
import Mathlib.Analysis.SpecialFunctions.Trigonometric.Basic

/-!
# Differential drive kinematics in floating point arithmetic (`ecl_mobile_robot/src/lib/differential_drive.cpp`)

The same functions as in `Verif.Model.DifferentialDrive`, now with the rounding `fl` of every operation on doubles.
Infinities, NaN, overflow and subnormal numbers are not modelled.
-/
set_option autoImplicit false

namespace Ecl.DriveFloat
open Ecl.Angle Ecl.Pose Ecl.DiffDrive Ecl.PoseFloat
open Ecl.AngleFloat (wrapD)

/-- The angle of `poseUpdateFromWheelDifferential` before it is wrapped (`differential_drive.cpp:40`). -/
noncomputable def turnF (fl : ℝ → ℝ) (d : Drive) (dleft dright : ℝ) : ℝ :=
  fl (fl (d.radius * fl (dright - dleft)) / d.bias)

/-- `poseUpdateFromWheelDifferential` (`differential_drive.cpp:37-46`). -/
noncomputable def poseUpdateFromWheelF (fl : ℝ → ℝ) (d : Drive) (dleft dright : ℝ) : XYH :=
  let ds := fl (fl (d.radius * fl (dleft + dright)) / 2)
  { x := ds, y := 0, h := wrapD fl (turnF fl d dleft dright) }

/-- `baseToWheelVelocities` (`59-67`): left and right rate. -/
noncomputable def baseToWheelF (fl : ℝ → ℝ) (d : Drive) (linear angular : ℝ) : ℝ × ℝ :=
  let right := fl (fl (fl (2 * linear) + fl (angular * d.bias)) / fl (2 * d.radius))
  let left := fl (fl (fl (2 * linear) / d.radius) - right)
  (left, right)

/-- Eigen's inverse of a 2x2 matrix: the adjugate times the inverse of the determinant (called at
`differential_drive.cpp:77`). -/
noncomputable def inverse2F (fl : ℝ → ℝ) (m : Mat2) : Mat2 :=
  let det := fl (fl (m.m00 * m.m11) - fl (m.m10 * m.m01))
  let inv := fl (1 / det)
  { m00 := fl (m.m11 * inv), m01 := fl (-m.m01 * inv), m10 := fl (-m.m10 * inv), m11 := fl (m.m00 * inv) }

/-- `PoseToBaseDifferential` (`69-86`); the square root is rounded correctly. -/
noncomputable def poseToBaseF (fl cosF sinF : ℝ → ℝ) (a b : XYH) : ℝ × ℝ :=
  let dx := fl (b.x - a.x)
  let dy := fl (b.y - a.y)
  let r := inverse2F fl (rotationF cosF sinF (wrapD fl a.h))
  let dr0 := dotF fl r.m00 dx r.m01 dy
  let dr1 := dotF fl r.m10 dx r.m11 dy
  let ds := fl (Real.sqrt (dotF fl dr0 dr0 dr1 dr1))
  let ds := if dr0 < 0 then -ds else ds
  (ds, wrapD fl (fl (b.h - a.h)))

end Ecl.DriveFloat
