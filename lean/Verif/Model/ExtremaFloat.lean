import Verif.Model.PolynomialFloat

/-!
# Division, intersection and extreme values with rounding (`ecl_geometry/src/lib/polynomial.cpp`)

As `Model/Polynomial.lean`, with every operation rounded by `fl` (to double).  Products by -1, 2 and 4 are exact and
not rounded; operations are not contracted (fused); overflow and underflow are not modelled.
-/
set_option autoImplicit false

namespace Ecl.PolyFloat
open Ecl.Poly (Coeffs ofList raise lower)

/-- `Division<QuadraticPolynomial>` (`polynomial.cpp:34-42`): quotient and remainder. -/
noncomputable def divideQuadratic (fl : ℝ → ℝ) (p : Coeffs ℝ) (f : ℝ) : Coeffs ℝ × ℝ :=
  let a := p 2
  let b := fl (p 1 + fl (f * a))
  (ofList [b, a], fl (p 0 + fl (f * b)))

/-- `Division<CubicPolynomial>` (`polynomial.cpp:44-53`): quotient and remainder. -/
noncomputable def divideCubic (fl : ℝ → ℝ) (p : Coeffs ℝ) (f : ℝ) : Coeffs ℝ × ℝ :=
  let a := p 3
  let b := fl (p 2 + fl (f * a))
  let c := fl (p 1 + fl (f * b))
  (ofList [c, b, a], fl (p 0 + fl (f * c)))

/-- `isApprox` of two doubles with the default precision, itself rounded to double
(`ecl_math/include/ecl/math/fuzzy.hpp:62-66`, `154-156`). -/
def isApproxFloat (fl : ℝ → ℝ) (x y : ℝ) : Prop :=
  |fl (x - y)| ≤ fl (min |x| |y| * fl ((Math.dummyDouble : ℚ) : ℝ))

/-- `Intersection<LinearFunction>` (`polynomial.cpp:154-168`). -/
noncomputable def intersection (fl : ℝ → ℝ) (f g : Coeffs ℝ) : Outcome (ℝ × ℝ) :=
  let a0 := f 0
  let b0 := f 1
  let a1 := g 0
  let b1 := g 1
  open Classical in
  if isApproxFloat fl b0 b1 then .throw .outOfRange
  else
    let x := fl (fl (a0 - a1) / fl (b1 - b0))
    .ok (x, eval fl 1 f x)

/-- Test of one candidate strictly inside the interval (`polynomial.cpp:194-199`, `204-209`, `211-216`; for the
minimum `246-251`, `256-261`, `263-268`). -/
noncomputable def consider (fl : ℝ → ℝ) (better : ℝ → ℝ → ℝ) (p : Coeffs ℝ) (xb xe root best : ℝ) : ℝ :=
  if root > xb ∧ root < xe then better (eval fl 3 p root) best else best

/-- `Maximum<LinearFunction>` (`polynomial.cpp:170-178`) and `Minimum<LinearFunction>` (`222-230`). -/
noncomputable def linearExtremum (fl : ℝ → ℝ) (better : ℝ → ℝ → ℝ) (xb xe : ℝ) (p : Coeffs ℝ) : ℝ :=
  better (eval fl 1 p xe) (eval fl 1 p xb)

/-- `Maximum<CubicPolynomial>` (`polynomial.cpp:180-220`) and, with `<` for `>`, `Minimum<CubicPolynomial>`
(`232-272`).  In the branch `a == 0` with `b == 0` the root is an infinity or NaN, which is never strictly inside the
interval. -/
noncomputable def cubicExtremum (fl : ℝ → ℝ) (better : ℝ → ℝ → ℝ) (xb xe : ℝ) (p : Coeffs ℝ) : ℝ :=
  let best := better (eval fl 3 p xe) (eval fl 3 p xb)
  let a := fl (3 * p 3)
  let b := 2 * p 2
  let c := p 1
  if a = 0 then
    if b = 0 then best else consider fl better p xb xe (fl (-c / b)) best
  else
    let sqrtTerm := discriminant fl a b c
    if sqrtTerm > 0 then
      let best1 := consider fl better p xb xe (fl (fl (-b + fl (Real.sqrt (discriminant fl a b c))) / (2 * a))) best
      consider fl better p xb xe (fl (fl (-b - fl (Real.sqrt (discriminant fl a b c))) / (2 * a))) best1
    else best

/-- `Maximum<LinearFunction>` (`polynomial.cpp:170-178`). -/
noncomputable def maximumLinear (fl : ℝ → ℝ) := linearExtremum fl raise
/-- `Minimum<LinearFunction>` (`polynomial.cpp:222-230`). -/
noncomputable def minimumLinear (fl : ℝ → ℝ) := linearExtremum fl lower
/-- `Maximum<CubicPolynomial>` (`polynomial.cpp:180-220`). -/
noncomputable def maximumCubic (fl : ℝ → ℝ) := cubicExtremum fl raise
/-- `Minimum<CubicPolynomial>` (`polynomial.cpp:232-272`). -/
noncomputable def minimumCubic (fl : ℝ → ℝ) := cubicExtremum fl lower

end Ecl.PolyFloat
