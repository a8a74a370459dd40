import Verif.Model.CovarianceEllipsoid

/-!
# The planar `CovarianceEllipsoid` with rounding and NaN (`ecl_statistics/src/lib/covariance_ellipsoid.cpp`)

As `Model/CovarianceEllipsoid.lean`, with every operation rounded by `fl` (to float or to double; both versions have the
same text), and with `none` for NaN, which is what the square root of a negative number is.  Overflow and underflow are
not modelled, nor is contraction to fused operations.
-/
set_option autoImplicit false

namespace Ecl.EllipsoidFloat
open Real

/-- `sqrt`, `sqrtf` of the C library, correctly rounded (called in `covariance_ellipsoid.cpp:58-59`, `154-155`). -/
noncomputable def root (fl : ℝ → ℝ) (x : ℝ) : Option ℝ := if x < 0 then none else some (fl (sqrt x))

/-- The local variable `tmp` (`covariance_ellipsoid.cpp:58`, `154`). -/
noncomputable def spread (fl : ℝ → ℝ) (a b c d : ℝ) : Option ℝ :=
  root fl (fl (fl (fl (fl (fl (a + d) * fl (a + d)) / 4) - fl (a * d)) + fl (b * c)))

/-- The lengths (`covariance_ellipsoid.cpp:59`, `155`). -/
noncomputable def lengths (fl : ℝ → ℝ) (a b c d : ℝ) : Option ℝ × Option ℝ :=
  ((spread fl a b c d).bind fun t => root fl (fl (fl (fl (a + d) / 2) + t)),
   (spread fl a b c d).bind fun t => root fl (fl (fl (fl (a + d) / 2) - t)))

/-- One column of the axes for the length `l` if `c` or `b` is not 0 (`covariance_ellipsoid.cpp:67-76`, `163-172`). -/
noncomputable def column (fl : ℝ → ℝ) (a b c d l : ℝ) : ℝ × ℝ :=
  if c ≠ 0 then (fl (fl (l * l) - d), c) else (b, fl (fl (l * l) - a))

/-- The two columns before they are normalised (`covariance_ellipsoid.cpp:67-86`, `163-182`). A NaN in a column makes
the whole column NaN when it is normalised, so the column is `none`. -/
noncomputable def rawAxes (fl : ℝ → ℝ) (a b c d : ℝ) : Option (ℝ × ℝ) × Option (ℝ × ℝ) :=
  if c ≠ 0 ∨ b ≠ 0 then
    ((lengths fl a b c d).1.map (column fl a b c d), (lengths fl a b c d).2.map (column fl a b c d))
  else if a > d then (some (1, 0), some (0, 1))
  else (some (0, 1), some (1, 0))

/-- Eigen's `normalize()` of a column that is not 0 (`covariance_ellipsoid.cpp:90-91`, `186-187`). -/
noncomputable def normalized (fl : ℝ → ℝ) (v : ℝ × ℝ) : ℝ × ℝ :=
  let n := fl (sqrt (fl (fl (v.1 * v.1) + fl (v.2 * v.2))))
  (fl (v.1 / n), fl (v.2 / n))

/-- The axes (`covariance_ellipsoid.cpp:64-91`, `160-187`). -/
noncomputable def axes (fl : ℝ → ℝ) (a b c d : ℝ) : Option (ℝ × ℝ) × Option (ℝ × ℝ) :=
  ((rawAxes fl a b c d).1.map (normalized fl), (rawAxes fl a b c d).2.map (normalized fl))

end Ecl.EllipsoidFloat
