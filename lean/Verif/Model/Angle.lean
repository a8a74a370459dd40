import Mathlib.Analysis.SpecialFunctions.Trigonometric.Basic
import Mathlib.Analysis.SpecialFunctions.Complex.Arg
import Mathlib.Algebra.Order.Floor.Ring

/-!
# Angles (`ecl_geometry/include/ecl/geometry/angle.hpp`, `ecl_geometry/src/lib/angle.cpp`)

Angles are exact real numbers: the rounding of `float`/`double`, infinities and NaN are not
modelled, and `ecl::pi` stands for π itself.
-/
set_option autoImplicit false

namespace Ecl.Angle
open Real

/-- Quotient rounded towards zero, as the C library rounds it inside `fmod`. Used by `wrap_angle`
(`angle.cpp:34-36`, `59-61` and the two versions by value). -/
noncomputable def truncQuot (x y : ℝ) : ℤ := if 0 ≤ x / y then ⌊x / y⌋ else ⌈x / y⌉

/-- C `fmod` for a non-zero second argument (C11 7.12.10.1): the remainder has the sign of `x`. -/
noncomputable def fmod (x y : ℝ) : ℝ := x - truncQuot x y * y

/-- `wrap_angle` (`angle.cpp:29-74`; the four versions, by reference and by value for `float` and
`double`, are the same text). -/
noncomputable def wrapAngle (a : ℝ) : ℝ :=
  if a ≤ π ∧ a ≥ -π then a
  else if a < 0 then fmod (a - π) (2 * π) + π
  else fmod (a + π) (2 * π) - π

/-- `Angle(const T&)` (`angle.hpp:152`) and `operator=` (`341-346`): the stored value is wrapped. -/
noncomputable def ofReal (a : ℝ) : ℝ := wrapAngle a

/-- `operator+` (`352-360`): wraps, then builds an `Angle`, which wraps again. -/
noncomputable def add (a b : ℝ) : ℝ := ofReal (wrapAngle (a + b))
/-- `operator-` (`374-382`). -/
noncomputable def sub (a b : ℝ) : ℝ := ofReal (wrapAngle (a - b))
/-- `operator*` (`396-399`). -/
noncomputable def scale (a k : ℝ) : ℝ := ofReal (wrapAngle (k * a))
/-- `operator+=` (`362-372`). -/
noncomputable def addAssign (a b : ℝ) : ℝ := wrapAngle (a + b)
/-- `operator-=` (`384-394`). -/
noncomputable def subAssign (a b : ℝ) : ℝ := wrapAngle (a - b)
/-- `operator*=` (`401-405`). -/
noncomputable def scaleAssign (a k : ℝ) : ℝ := wrapAngle (a * k)

/-- `radians_to_degrees`, `degrees_to_radians` (`angle.hpp:41-59`). -/
noncomputable def radiansToDegrees (r : ℝ) : ℝ := r * (180 / π)
/-- `degrees_to_radians` (`angle.hpp:54-59`). -/
noncomputable def degreesToRadians (d : ℝ) : ℝ := d * (π / 180)

/-- `Angle::Degrees`, `Angle::Radians` (`angle.hpp:411-419`) and `degrees()` (`337-339`). -/
noncomputable def degreesOf (a : ℝ) : ℝ := radiansToDegrees a
/-- `Angle::Degrees` (`angle.hpp:411-414`). -/
noncomputable def ofDegrees (d : ℝ) : ℝ := ofReal (degreesToRadians d)
/-- `Angle::Radians` (`angle.hpp:416-419`). -/
noncomputable def ofRadians (r : ℝ) : ℝ := ofReal r

/-- A 2x2 matrix, filled by `<<` row by row. -/
@[ext] structure Mat2 where
  m00 : ℝ
  m01 : ℝ
  m10 : ℝ
  m11 : ℝ

/-- `rotationMatrix()` (`angle.hpp:289-293`). -/
noncomputable def rotationMatrix (a : ℝ) : Mat2 := ⟨cos a, -sin a, sin a, cos a⟩

/-- C `atan2(y, x)` for finite arguments: the argument of `x + iy` in (-π, π]; signed zeros are not
modelled. -/
noncomputable def atan2 (y x : ℝ) : ℝ := Complex.arg ⟨x, y⟩

/-- `Angle(const RotationMatrix&)` (`angle.hpp:157-159`). -/
noncomputable def ofRotation (m : Mat2) : ℝ := atan2 m.m10 m.m00

end Ecl.Angle
