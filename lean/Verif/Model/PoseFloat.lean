import Verif.Model.Pose

/-!
# Poses in floating point arithmetic (`ecl_geometry/include/ecl/geometry/pose2d.hpp`, `legacy_pose2d.hpp`)

The same functions as in `Verif.Model.Pose`, now with the rounding `fl` of every operation and with
library functions `cosF`, `sinF`, `atan2F` that need not be exact.  Eigen's products of small matrices are
evaluated as written in the formula for an entry, without fused operations; infinities, NaN, overflow and
subnormal numbers are not modelled.
-/
set_option autoImplicit false

namespace Ecl.PoseFloat
open Ecl.Angle Ecl.Pose

/-- `rotationMatrix()` (`angle.hpp:289-293`). -/
def rotationF (cosF sinF : ℝ → ℝ) (a : ℝ) : Mat2 := ⟨cosF a, -sinF a, sinF a, cosF a⟩

/-- Entry of a product of small matrices: `a*b + c*d` (Eigen, called at `legacy_pose2d.hpp:119`, `415`). -/
def dotF (fl : ℝ → ℝ) (a b c d : ℝ) : ℝ := fl (fl (a * b) + fl (c * d))

/-- Product of 2x2 matrices (`legacy_pose2d.hpp:119`). -/
def mulMatF (fl : ℝ → ℝ) (a b : Mat2) : Mat2 :=
  ⟨dotF fl a.m00 b.m00 a.m01 b.m10, dotF fl a.m00 b.m01 a.m01 b.m11,
   dotF fl a.m10 b.m00 a.m11 b.m10, dotF fl a.m10 b.m01 a.m11 b.m11⟩

/-- `LegacyPose2D(x, y, angle)` (`legacy_pose2d.hpp:220-223`). -/
def makeF (cosF sinF : ℝ → ℝ) (x y angle : ℝ) : PoseM := ⟨rotationF cosF sinF angle, x, y⟩

/-- `operator*`, and `operator*=`, which assigns the product (`legacy_pose2d.hpp:413-426`). -/
def mulF (fl : ℝ → ℝ) (p q : PoseM) : PoseM :=
  { rot := mulMatF fl p.rot q.rot
    x := fl (p.x + dotF fl p.rot.m00 q.x p.rot.m01 q.y)
    y := fl (p.y + dotF fl p.rot.m10 q.x p.rot.m11 q.y) }

/-- `heading()` (`legacy_pose2d.hpp:388`, `118`, `angle.hpp:157-159`). -/
def headingF (atan2F : ℝ → ℝ → ℝ) (p : PoseM) : ℝ := atan2F p.rot.m10 p.rot.m00

/-- `concatenate_poses` (`pose2d.hpp:47-63`), `Pose2D::operator*` (`154-156`); `extend_pose` (`76-89`) and
`operator*=` (`167-170`) give the same for two different objects.  `wrap` is `wrap_angle`. -/
def concatenateF (fl cosF sinF wrap : ℝ → ℝ) (a b : XYH) : XYH :=
  let c := cosF a.h
  let s := sinF a.h
  { x := fl (fl (a.x + fl (c * b.x)) - fl (s * b.y))
    y := fl (fl (a.y + fl (s * b.x)) + fl (c * b.y))
    h := wrap (fl (a.h + b.h)) }

end Ecl.PoseFloat
