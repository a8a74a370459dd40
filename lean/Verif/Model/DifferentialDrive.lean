import Verif.Model.Pose

/-!
# Differential drive kinematics (`ecl_mobile_robot/src/lib/differential_drive.cpp`)

Exact real arithmetic.
-/
set_option autoImplicit false

namespace Ecl.DiffDrive
open Real Ecl.Angle Ecl.Pose

/-- The members `bias` and `radius` (`differential_drive.hpp:71-76`, `171`). -/
structure Drive where
  bias : ℝ
  radius : ℝ

/-- The constructor (`differential_drive.hpp:71-76`). -/
def make (fixedAxisLength wheelRadius : ℝ) : Drive := { bias := fixedAxisLength, radius := wheelRadius }

/-- `poseUpdateFromWheelDifferential` (`differential_drive.cpp:37-46`). -/
noncomputable def poseUpdateFromWheel (d : Drive) (dleft dright : ℝ) : XYH :=
  let ds := d.radius * (dleft + dright) / 2
  let domega := d.radius * (dright - dleft) / d.bias
  { x := ds, y := 0, h := wrapAngle domega }

/-- `poseUpdateFromBaseDifferential` (`48-57`). -/
noncomputable def poseUpdateFromBase (_d : Drive) (translation rotation : ℝ) : XYH :=
  { x := translation, y := 0, h := wrapAngle rotation }

/-- `baseToWheelVelocities` (`59-67`): left and right rate. -/
noncomputable def baseToWheel (d : Drive) (linear angular : ℝ) : ℝ × ℝ :=
  let right := (2 * linear + angular * d.bias) / (2 * d.radius)
  let left := 2 * linear / d.radius - right
  (left, right)

/-- Eigen's inverse of a 2x2 matrix: the adjugate divided by the determinant. -/
noncomputable def inverse2 (m : Mat2) : Mat2 :=
  let det := m.m00 * m.m11 - m.m01 * m.m10
  { m00 := m.m11 / det, m01 := -m.m01 / det, m10 := -m.m10 / det, m11 := m.m00 / det }

/-- `PoseToBaseDifferential` (`69-86`). -/
noncomputable def poseToBase (a b : XYH) : ℝ × ℝ :=
  let dx := b.x - a.x
  let dy := b.y - a.y
  let r := inverse2 (rotationMatrix (ofReal a.h))
  let dr0 := r.m00 * dx + r.m01 * dy
  let dr1 := r.m10 * dx + r.m11 * dy
  let ds := sqrt (dr0 * dr0 + dr1 * dr1)
  let ds := if dr0 < 0 then -ds else ds
  let dtheta := b.h - a.h
  (ds, wrapAngle dtheta)

end Ecl.DiffDrive
