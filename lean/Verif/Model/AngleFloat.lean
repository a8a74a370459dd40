import Verif.Model.Angle
import Mathlib.Analysis.SpecialFunctions.Trigonometric.Basic

/-!
# Angles in floating point arithmetic (`ecl_geometry/src/lib/angle.cpp`, `ecl_geometry/include/ecl/geometry/angle.hpp`)

The same functions as in `Verif.Model.Angle`, now with the rounding of every operation.  `fl` rounds to double
and `fs` to float; the values are the real numbers that the floating point numbers stand for.  Infinities, NaN,
overflow, subnormal numbers and the sign of zero are not modelled; expressions are evaluated in their own type
(`FLT_EVAL_METHOD` 0).
-/
set_option autoImplicit false

namespace Ecl.AngleFloat
open Ecl.Angle (fmod)

/-- `ecl::pi`: `M_PI` as a double (`ecl_math/include/ecl/math/constants.hpp:28`). -/
noncomputable def piD : ℝ := 884279719003555 / 2 ^ 48

/-- `wrap_angle` for `double` (`angle.cpp:52-74`, by reference and by value).  `fmod` is exact. -/
noncomputable def wrapD (fl : ℝ → ℝ) (a : ℝ) : ℝ :=
  if a ≤ piD ∧ a ≥ -piD then a
  else if a < 0 then fl (fmod (fl (a - piD)) (fl (2 * piD)) + piD)
  else fl (fmod (fl (a + piD)) (fl (2 * piD)) - piD)

/-- `wrap_angle` for `float` (`angle.cpp:29-50`).  `pi` is a double: the comparisons, the sums and the
differences are those of doubles; the arguments of `fmodf` and the result are converted to float. -/
noncomputable def wrapS (fl fs : ℝ → ℝ) (a : ℝ) : ℝ :=
  if a ≤ piD ∧ a ≥ -piD then a
  else if a < 0 then fs (fl (fmod (fs (fl (a - piD))) (fs (fl (2 * piD))) + piD))
  else fs (fl (fmod (fs (fl (a + piD))) (fs (fl (2 * piD))) - piD))

/-! ### The class `Angle<T>`: `rnd` rounds to `T`, `wrap` is its `wrap_angle` -/

/-- `Angle(const T&)` (`angle.hpp:152`), `operator=` (`341-346`). -/
noncomputable def make (wrap : ℝ → ℝ) (a : ℝ) : ℝ := wrap a
/-- `operator+` (`352-360`). -/
noncomputable def add (rnd wrap : ℝ → ℝ) (a b : ℝ) : ℝ := make wrap (wrap (rnd (a + b)))
/-- `operator-` (`374-382`). -/
noncomputable def sub (rnd wrap : ℝ → ℝ) (a b : ℝ) : ℝ := make wrap (wrap (rnd (a - b)))
/-- `operator*` (`396-399`). -/
noncomputable def scale (rnd wrap : ℝ → ℝ) (a k : ℝ) : ℝ := make wrap (wrap (rnd (k * a)))
/-- `operator+=` (`362-372`). -/
noncomputable def addAssign (rnd wrap : ℝ → ℝ) (a b : ℝ) : ℝ := wrap (rnd (a + b))
/-- `operator-=` (`384-394`). -/
noncomputable def subAssign (rnd wrap : ℝ → ℝ) (a b : ℝ) : ℝ := wrap (rnd (a - b))
/-- `operator*=` (`401-405`). -/
noncomputable def scaleAssign (rnd wrap : ℝ → ℝ) (a k : ℝ) : ℝ := wrap (rnd (a * k))

/-- `radians_to_degrees`, `degrees_to_radians` (`angle.hpp:41-59`): the constants are computed in double and
converted to `T`. -/
noncomputable def radiansToDegrees (fl rnd : ℝ → ℝ) (r : ℝ) : ℝ := rnd (r * rnd (fl (180 / piD)))
/-- `degrees_to_radians` (`angle.hpp:54-59`). -/
noncomputable def degreesToRadians (fl rnd : ℝ → ℝ) (d : ℝ) : ℝ := rnd (d * rnd (fl (piD / 180)))

end Ecl.AngleFloat
