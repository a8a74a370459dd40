import Verif.Model.PolynomialFloat

/-!
# Interpolating polynomials with rounding (`ecl_geometry/include/ecl/geometry/polynomial.hpp`,
`ecl_geometry/src/lib/polynomial_blueprints.cpp`)

As in `Model/Polynomial.lean`, with every operation rounded by `fl` (to double).  Negation is exact and not rounded;
operations are not contracted (fused); overflow and underflow are not modelled.
-/
set_option autoImplicit false

namespace Ecl.PolyFloat
open Ecl.Poly (Coeffs ofList)

/-- Inner loop of `shift_horizontal` (`polynomial.hpp:405-409`) over the rest of the row; the binomial coefficients are
`int` and converted without rounding. -/
noncomputable def shiftInner (fl : ℝ → ℝ) (s : ℝ) (i : ℕ) : List Int → ℕ → ℝ → Coeffs ℝ → Coeffs ℝ
  | [], _, _, c => c
  | b :: bs, j, tmp, c =>
    shiftInner fl s i bs (j + 1) (fl (tmp * (-s))) (Function.update c i (fl (c i + fl (fl ((b : ℝ) * tmp) * c j))))

/-- Outer loop of `shift_horizontal` (`polynomial.hpp:402-410`), `left` passes from `i` on; the inner loop starts one
behind `begin(i)`. -/
noncomputable def shiftOuter (fl : ℝ → ℝ) (n : ℕ) (tri : List Int) (s : ℝ) : ℕ → ℕ → Coeffs ℝ → Coeffs ℝ
  | 0, _, c => c
  | left + 1, i, c =>
    shiftOuter fl n tri s left (i + 1) (shiftInner fl s i ((Pascal.row n i tri).drop 1) (i + 1) (-s) c)

/-- `shift_horizontal` (`polynomial.hpp:395-411`; `307` for degree 0). -/
noncomputable def shiftHorizontal (fl : ℝ → ℝ) (n : ℕ) (c : Coeffs ℝ) (s : ℝ) : Outcome (Coeffs ℝ) :=
  if n = 0 then .ok c
  else (Pascal.coefficients n).bind fun tri => .ok (shiftOuter fl n tri s n 0 c)

/-- `LinearInterpolation` (`polynomial_blueprints.cpp:45-54`). -/
noncomputable def linearInterpolation (fl : ℝ → ℝ) (xi yi xf yf : ℝ) : Coeffs ℝ :=
  let a1 := fl (fl (yf - yi) / fl (xf - xi))
  let a0 := fl (yi - fl (a1 * xi))
  ofList [a0, a1]

/-- `LinearPointSlopeForm` (`polynomial_blueprints.cpp:62-71`). -/
noncomputable def pointSlopeForm (fl : ℝ → ℝ) (xf yf slope : ℝ) : Coeffs ℝ :=
  let a1 := slope
  let a0 := fl (yf - fl (a1 * xf))
  ofList [a0, a1]

open Classical in
/-- The final `if ( x_initial != 0.0 ) shift_horizontal(x_initial)` of the blueprints
(`polynomial_blueprints.cpp:108-110`, `132-134`, `183-185`). -/
noncomputable def shiftUnlessZero (fl : ℝ → ℝ) (n : ℕ) (c : Coeffs ℝ) (s : ℝ) : Outcome (Coeffs ℝ) :=
  if s ≠ 0 then shiftHorizontal fl n c s else .ok c

/-- `CubicDerivativeInterpolation` (`polynomial_blueprints.cpp:85-111`). -/
noncomputable def cubicDerivativeInterpolation (fl : ℝ → ℝ) (xi yi ydi xf yf ydf : ℝ) : Outcome (Coeffs ℝ) :=
  let dx := fl (xf - xi)
  let dy := fl (yf - yi)
  let d2 := fl (dx * dx)
  let a2 := fl (fl (fl (fl (3 / d2) * dy) - fl (fl (2 / dx) * ydi)) - fl (fl (1 / dx) * ydf))
  let a3 := fl (fl (fl (-2 / fl (d2 * dx)) * dy) + fl (fl (ydf + ydi) / d2))
  shiftUnlessZero fl 3 (ofList [yi, ydi, a2, a3]) xi

/-- `CubicSecondDerivativeInterpolation` (`polynomial_blueprints.cpp:123-135`). -/
noncomputable def cubicSecondDerivativeInterpolation (fl : ℝ → ℝ) (xi yi yddi xf yf yddf : ℝ) : Outcome (Coeffs ℝ) :=
  let dx := fl (xf - xi)
  let a0 := yi
  let a2 := fl (yddi / 2)
  let a3 := fl (fl (yddf - yddi) / fl (6 * dx))
  let a1 := fl (fl (fl (fl (yf - a0) - fl (fl (a2 * dx) * dx)) - fl (fl (fl (a3 * dx) * dx) * dx)) / dx)
  shiftUnlessZero fl 3 (ofList [a0, a1, a2, a3]) xi

/-- `QuinticInterpolation` (`polynomial_blueprints.cpp:147-186`). -/
noncomputable def quinticInterpolation (fl : ℝ → ℝ) (xi yi ydi yddi xf yf ydf yddf : ℝ) : Outcome (Coeffs ℝ) :=
  let dx := fl (xf - xi)
  let d2x := fl (dx * dx)
  let d3x := fl (d2x * dx)
  let d4x := fl (d3x * dx)
  let d5x := fl (d4x * dx)
  let a0 := yi
  let a1 := ydi
  let a2 := fl (yddi / 2)
  let a3 := fl (fl (fl (fl (20 * fl (yf - yi)) - fl (fl (fl (8 * ydf) + fl (12 * ydi)) * dx))
    - fl (fl (fl (fl (3 * yddi) - yddf) * dx) * dx)) / fl (2 * d3x))
  let a4 := fl (fl (fl (fl (30 * fl (yi - yf)) + fl (fl (fl (14 * ydf) + fl (16 * ydi)) * dx))
    + fl (fl (fl (fl (-2 * yddf) + fl (3 * yddi)) * dx) * dx)) / fl (2 * d4x))
  let a5 := fl (fl (fl (fl (12 * fl (yf - yi)) - fl (fl (fl (6 * ydf) + fl (6 * ydi)) * dx))
    - fl (fl (fl (yddi - yddf) * dx) * dx)) / fl (2 * d5x))
  shiftUnlessZero fl 5 (ofList [a0, a1, a2, a3, a4, a5]) xi

end Ecl.PolyFloat
