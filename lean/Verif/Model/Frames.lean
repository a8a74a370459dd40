import Verif.Core.Rigid
import Verif.Core.Outcome
import Verif.Model.Angle
import Verif.Model.Pose
import Verif.Model.MathSimple
import Mathlib.Analysis.SpecialFunctions.Trigonometric.Inverse

/-!
# Model of the interpolation and conversion of frames

`ecl_linear_algebra/include/ecl/linear_algebra/sophus/interpolators.hpp`, `sophus/helpers.hpp` beside it,
`ecl_linear_algebra/src/lib/sophus_interpolators.cpp`, `sophus_helpers.cpp` beside it and the programs
`ecl_core_apps/src/utils/quaternion2yaw.cpp` and `yaw2quaternion.cpp`.  All arithmetic is exact.  The
groups of the Sophus library, which is not part of the repository, are `Ecl.Rigid`.
-/
set_option autoImplicit false

namespace Ecl.Frames
open Ecl.Angle (atan2)

/-! ## The library's exponential of the plane -/

/-- The factor of the translation in `Sophus::SE2::exp`. -/
noncomputable def vfac (θ : ℝ) : ℂ := if θ = 0 then 1 else ⟨Real.sin θ / θ, (1 - Real.cos θ) / θ⟩

/-- `Sophus::SE2::exp` (library, not in the repository): the tangent is velocity and turning rate. -/
noncomputable def se2Exp (v : ℂ × ℝ) : SE2 := ⟨Circle.exp v.2, vfac v.2 * v.1⟩

/-- `Sophus::SE2::log` (library). -/
noncomputable def se2Log (a : SE2) : ℂ × ℝ := (a.trans / vfac (Complex.arg a.rot), Complex.arg a.rot)

/-! ## Interpolators -/

section
variable {G V : Type} [Group G] [AddCommGroup V] [Module ℝ V]

/-- The members of an interpolator (`interpolators.hpp:64-65`). -/
structure Interpolator (G V : Type) where
  Ta : G
  tangent : V

/-- Constructor (`interpolators.hpp:54-59`). -/
def Interpolator.make (log : G → V) (Ta Tb : G) : Interpolator G V := ⟨Ta, log (Tb * Ta⁻¹)⟩

/-- `operator()` (`interpolators.hpp:60-62`). -/
def Interpolator.at (exp : V → G) (i : Interpolator G V) (t : ℝ) : G := exp (t • i.tangent) * i.Ta

end

/-- `SlidingInterpolator`, the frame at `t` (`sophus_interpolators.cpp:52-63`). -/
noncomputable def sliding {V : Type} [AddCommGroup V] [Module ℝ V] (exp : V → SE3) (log : SE3 → V)
    (Ta Tb : SE3) (t : ℝ) : SE3 :=
  let a := Ta⁻¹.trans
  let b := Tb⁻¹.trans
  let T := (Interpolator.make log Ta Tb).at exp t
  (⟨T⁻¹.rot, a + t • (b - a)⟩ : SE3)⁻¹

/-- `PlanarInterpolator`: the members that are used (`interpolators.hpp:83-85`). -/
structure Planar where
  Ta : SE3
  tangent : ℂ × ℝ

/-- Constructor (`sophus_interpolators.cpp:21-36`).  `logz` is the third entry of the library's
logarithm of a rotation. -/
noncomputable def Planar.make (m : Mode) (logz : (Space ≃ₗ[ℝ] Space) → ℝ) (Ta Tb : SE3) : Outcome Planar := do
  let pose := (Tb * Ta⁻¹)⁻¹
  assertThrow m (decide (|pose.trans.2| < 1 / 100000)) .invalidArgError
  .ok ⟨Ta, se2Log (⟨Circle.exp (logz pose.rot), pose.trans.1⟩ : SE2)⁻¹⟩

/-- `operator()` (`sophus_interpolators.cpp:37-46`). -/
noncomputable def Planar.at (p : Planar) (t : ℝ) : SE3 :=
  let e := se2Exp (t • p.tangent)
  (⟨rz (Circle.exp (Complex.arg e⁻¹.rot)), (e⁻¹.trans, 0)⟩ : SE3)⁻¹ * p.Ta

/-! ## Conversions -/

/-- `toPose2D` (`sophus_helpers.cpp:22-31`): `R(0,0)` and `R(1,0)` are the first coordinates of the image
of the first unit vector. -/
noncomputable def toPose2D (T : SE3) : Pose.XYH :=
  ⟨T.trans.1.re, T.trans.1.im, atan2 (T.rot (1, 0)).1.im (T.rot (1, 0)).1.re⟩

/-- `toPose3D` (`sophus_helpers.cpp:33-44`): the rotations by 0 around the other axes are left out. -/
noncomputable def toPose3D (p : Pose.XYH) : SE3 := ⟨rz (Circle.exp p.h), (⟨p.x, p.y⟩, 0)⟩

/-- `points2DToSophusTransform` (`sophus_helpers.cpp:51-59`). -/
noncomputable def lineFrame (fromX fromY toX toY : ℝ) : SE3 :=
  ⟨rz (Circle.exp (atan2 (toY - fromY) (toX - fromX))), (⟨fromX, fromY⟩, 0)⟩

/-! ## Quaternions -/

/-- A quaternion (Eigen, used at `helpers.hpp:92-110`). -/
@[ext] structure Quat where
  x : ℝ
  y : ℝ
  z : ℝ
  w : ℝ

/-- `PlanarRotation2Quaternion::convert` (`helpers.hpp:106-110`). -/
noncomputable def convert (θ : ℝ) : Quat := ⟨0, 0, Real.sin (θ / 2), Real.cos (θ / 2)⟩

/-- `PlanarRotation2Quaternion::operator()` (`helpers.hpp:92-97`).  `ofRotation` is the library's
conversion of a rotation matrix. -/
noncomputable def planarQuat (ofRotation : (Space ≃ₗ[ℝ] Space) → Quat) (θ : ℝ) : Quat :=
  ofRotation (rz (Circle.exp θ))

/-- The number computed by `quaternion2yaw`, in radians, and whether it says that the quaternion is not
one of a yaw (`quaternion2yaw.cpp:49-54`); it goes on in any case. -/
noncomputable def quaternion2yaw (q : Quat) : Bool × ℝ :=
  (decide (q.x ≠ 0 ∧ q.y ≠ 0), 2 * Real.arccos q.w * Math.sign q.z)

/-- The quaternion computed by `yaw2quaternion` (`yaw2quaternion.cpp:42`). -/
noncomputable def yaw2quaternion (yaw : ℝ) : Quat := ⟨0, 0, Real.sin (yaw / 2), Real.cos (yaw / 2)⟩

end Ecl.Frames
