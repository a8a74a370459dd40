import Verif.Model.Polynomial

/-!
# Polynomials with rounding (`ecl_geometry/include/ecl/geometry/polynomial.hpp`, `ecl_geometry/src/lib/polynomial.cpp`)

As `Model/Polynomial.lean`, with every operation rounded by `fl` (to double).  Products by 1, -1, 2 and 4 are exact and
not rounded; operations are not contracted (fused); overflow and underflow are not modelled.
-/
set_option autoImplicit false

namespace Ecl.PolyFloat
open Ecl.Poly (Coeffs ofList)

/-- Loop of `operator()` (`polynomial.hpp:420-423`), `left` passes from `i` on. -/
noncomputable def evalLoop (fl : ℝ → ℝ) (c : Coeffs ℝ) (x : ℝ) : ℕ → ℕ → ℝ → ℝ → ℝ
  | 0, _, _, value => value
  | left + 1, i, tmp, value => evalLoop fl c x left (i + 1) (fl (tmp * x)) (fl (value + fl (c i * tmp)))

/-- `operator()` (`polynomial.hpp:415-425`; `375-377` for degree 0). -/
noncomputable def eval (fl : ℝ → ℝ) (n : ℕ) (c : Coeffs ℝ) (x : ℝ) : ℝ := evalLoop fl c x n 1 x (c 0)

/-- `derivative()` (`polynomial.hpp:189-196`; `319-321` for degree 0). -/
noncomputable def derivative (fl : ℝ → ℝ) (n : ℕ) (c : Coeffs ℝ) : Coeffs ℝ :=
  fun i => if i < n then fl (((i + 1 : ℕ) : ℝ) * c (i + 1)) else 0

/-- `derivative(x)` (`polynomial.hpp:426-434`; `329-331` for degree 0). -/
noncomputable def derivativeAt (fl : ℝ → ℝ) (n : ℕ) (c : Coeffs ℝ) (x : ℝ) : ℝ :=
  if n > 0 then eval fl (n - 1) (derivative fl n c) x else 0

/-- `dderivative(x)` (`polynomial.hpp:436-444`; `339-341` for degree 0). -/
noncomputable def dderivativeAt (fl : ℝ → ℝ) (n : ℕ) (c : Coeffs ℝ) (x : ℝ) : ℝ :=
  if n > 1 then eval fl (n - 2) (derivative fl (n - 1) (derivative fl n c)) x else 0

/-- `Roots<LinearFunction>` (`polynomial.cpp:59-68`). -/
noncomputable def linearRoots (fl : ℝ → ℝ) (p : Coeffs ℝ) : List ℝ :=
  let a := p 1
  let b := p 0
  if a ≠ 0 then [fl (-1 * b / a)] else []

/-- `discriminant` (`polynomial.cpp:80`). -/
noncomputable def discriminant (fl : ℝ → ℝ) (a b c : ℝ) : ℝ := fl (fl (b * b) - fl (4 * a * c))

/-- `Roots<QuadraticPolynomial>` (`polynomial.cpp:70-90`); `sqrt` is correctly rounded. -/
noncomputable def quadraticRoots (fl : ℝ → ℝ) (p : Coeffs ℝ) : List ℝ :=
  let a := p 2
  let b := p 1
  let c := p 0
  if a = 0 then linearRoots fl (ofList [c, b])
  else
    let d := discriminant fl a b c
    if d > 0 then
      [fl (fl (-b + fl (Real.sqrt d)) / (2 * a)), fl (fl (-b - fl (Real.sqrt d)) / (2 * a))]
    else if d = 0 then [fl (-b / (2 * a))]
    else []

end Ecl.PolyFloat
