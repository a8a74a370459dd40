import Verif.Model.Pascal
import Verif.Model.MathSimple
import Mathlib.Analysis.SpecialFunctions.Trigonometric.Inverse
import Mathlib.Logic.Function.Basic

/-!
# Polynomials (`ecl_geometry/include/ecl/geometry/polynomial.hpp`,
`ecl_geometry/src/lib/polynomial.cpp`, `ecl_geometry/src/lib/polynomial_blueprints.cpp`)

`double` is replaced by an exact field: rounding and overflow are not modelled.  The coefficient
array of `Polynomial<N>` is a function on indices; only the indices `0..N` belong to the array.
-/
set_option autoImplicit false

namespace Ecl.Poly
open Ecl

variable {K : Type} [Field K]

/-- The coefficient array `coeff`. (`polynomial.hpp:189-196`.) -/
abbrev Coeffs (K : Type) := ℕ → K

/-- `coefficients() << a0, a1, ...` -/
def ofList (l : List K) : Coeffs K := fun i => l.getD i 0

/-- Loop of `operator()` (`polynomial.hpp:420-423`), `left` passes from `i` on. -/
def evalLoop (c : Coeffs K) (x : K) : ℕ → ℕ → K → K → K
  | 0, _, _, value => value
  | left + 1, i, tmp, value => evalLoop c x left (i + 1) (tmp * x) (value + c i * tmp)

/-- `operator()` (`polynomial.hpp:415-425`; `375-377` for degree 0, where the loop does not run). -/
def eval (n : ℕ) (c : Coeffs K) (x : K) : K := evalLoop c x n 1 x (c 0)

/-- `derivative()` (`polynomial.hpp:189-196`; `319-321` for degree 0), a polynomial of degree `n-1`
built on zero coefficients. -/
def derivative (n : ℕ) (c : Coeffs K) : Coeffs K :=
  fun i => if i < n then ((i + 1 : ℕ) : K) * c (i + 1) else 0

/-- `derivative(x)` (`polynomial.hpp:426-434`; `329-331` for degree 0). -/
def derivativeAt (n : ℕ) (c : Coeffs K) (x : K) : K :=
  if n > 0 then eval (n - 1) (derivative n c) x else 0

/-- `dderivative(x)` (`polynomial.hpp:436-444`; `339-341` for degree 0). -/
def dderivativeAt (n : ℕ) (c : Coeffs K) (x : K) : K :=
  if n > 1 then eval (n - 2) (derivative (n - 1) (derivative n c)) x else 0

/-- Inner loop of `shift_horizontal` (`polynomial.hpp:405-409`) over the rest of the row. -/
def shiftInner (s : K) (i : ℕ) : List Int → ℕ → K → Coeffs K → Coeffs K
  | [], _, _, c => c
  | b :: bs, j, tmp, c =>
    shiftInner s i bs (j + 1) (tmp * (-1 * s)) (Function.update c i (c i + (b : K) * tmp * c j))

/-- Outer loop of `shift_horizontal` (`402-410`), `left` passes from `i` on; the inner loop starts one
behind `begin(i)`. -/
def shiftOuter (n : ℕ) (tri : List Int) (s : K) : ℕ → ℕ → Coeffs K → Coeffs K
  | 0, _, c => c
  | left + 1, i, c =>
    shiftOuter n tri s left (i + 1) (shiftInner s i ((Pascal.row n i tri).drop 1) (i + 1) (-1 * s) c)

/-- `shift_horizontal` (`polynomial.hpp:395-411`; `307` for degree 0). -/
def shiftHorizontal (n : ℕ) (c : Coeffs K) (s : K) : Outcome (Coeffs K) :=
  if n = 0 then .ok c
  else (Pascal.coefficients n).bind fun tri => .ok (shiftOuter n tri s n 0 c)

/-! ## Blueprints -/

/-- `LinearInterpolation` (`polynomial_blueprints.cpp:45-54`). -/
def linearInterpolation (xi yi xf yf : K) : Coeffs K :=
  let a1 := (yf - yi) / (xf - xi)
  let a0 := yi - a1 * xi
  ofList [a0, a1]

/-- `LinearPointSlopeForm` (`62-71`). -/
def pointSlopeForm (xf yf slope : K) : Coeffs K :=
  let a1 := slope
  let a0 := yf - a1 * xf
  ofList [a0, a1]

/-- The final `if ( x_initial != 0.0 ) shift_horizontal(x_initial)` of the blueprints. -/
def shiftUnlessZero [DecidableEq K] (n : ℕ) (c : Coeffs K) (s : K) : Outcome (Coeffs K) :=
  if s ≠ 0 then shiftHorizontal n c s else .ok c

/-- `CubicDerivativeInterpolation` (`85-111`). -/
def cubicDerivativeInterpolation [DecidableEq K] (xi yi ydi xf yf ydf : K) : Outcome (Coeffs K) :=
  let dx := xf - xi
  let dy := yf - yi
  let c := ofList [yi, ydi,
    (3 / (dx * dx)) * dy - (2 / dx) * ydi - (1 / dx) * ydf,
    (-2 / (dx * dx * dx)) * dy + (ydf + ydi) / (dx * dx)]
  shiftUnlessZero 3 c xi

/-- `CubicSecondDerivativeInterpolation` (`123-135`). -/
def cubicSecondDerivativeInterpolation [DecidableEq K] (xi yi yddi xf yf yddf : K) :
    Outcome (Coeffs K) :=
  let dx := xf - xi
  let a0 := yi
  let a2 := yddi / 2
  let a3 := (yddf - yddi) / (6 * dx)
  let a1 := (yf - a0 - a2 * dx * dx - a3 * dx * dx * dx) / dx
  shiftUnlessZero 3 (ofList [a0, a1, a2, a3]) xi

/-- `QuinticInterpolation` (`147-186`). -/
def quinticInterpolation [DecidableEq K] (xi yi ydi yddi xf yf ydf yddf : K) : Outcome (Coeffs K) :=
  let dx := xf - xi
  let d2x := dx * dx
  let d3x := d2x * dx
  let d4x := d3x * dx
  let d5x := d4x * dx
  let a0 := yi
  let a1 := ydi
  let a2 := yddi / 2
  let a3 := (20 * (yf - yi) - (8 * ydf + 12 * ydi) * dx - (3 * yddi - yddf) * dx * dx) / (2 * d3x)
  let a4 := (30 * (yi - yf) + (14 * ydf + 16 * ydi) * dx + (-2 * yddf + 3 * yddi) * dx * dx) / (2 * d4x)
  let a5 := (12 * (yf - yi) - (6 * ydf + 6 * ydi) * dx - (yddi - yddf) * dx * dx) / (2 * d5x)
  shiftUnlessZero 5 (ofList [a0, a1, a2, a3, a4, a5]) xi

/-! ## Synthetic division, roots, extrema -/

/-- `Division<QuadraticPolynomial>` (`polynomial.cpp:34-42`): quotient and remainder. -/
def divideQuadratic (p : Coeffs K) (f : K) : Coeffs K × K :=
  let a := p 2
  let b := p 1 + f * a
  (ofList [b, a], p 0 + f * b)

/-- `Division<CubicPolynomial>` (`44-53`). -/
def divideCubic (p : Coeffs K) (f : K) : Coeffs K × K :=
  let a := p 3
  let b := p 2 + f * a
  let c := p 1 + f * b
  (ofList [c, b, a], p 0 + f * c)

/-- A `double` result: a number, or NaN.  Infinities are not represented, see `cubicRoots`. (The
return values of `polynomial.cpp:59-272`.) -/
abbrev Float := Option ℝ

/-- `sqrt`: NaN for negative arguments. (Used at `polynomial.cpp:70-152`.) -/
noncomputable def fsqrt (x : ℝ) : Float := if x < 0 then none else some (Real.sqrt x)

/-- `Roots<LinearFunction>` (`polynomial.cpp:59-68`). -/
noncomputable def linearRoots (p : Coeffs ℝ) : List ℝ :=
  let a := p 1
  let b := p 0
  if a ≠ 0 then [-1 * b / a] else []

/-- `Roots<QuadraticPolynomial>` (`70-90`). -/
noncomputable def quadraticRoots (p : Coeffs ℝ) : List ℝ :=
  let a := p 2
  let b := p 1
  let c := p 0
  if a = 0 then linearRoots (ofList [c, b])
  else
    let discriminant := b * b - 4 * a * c
    if discriminant > 0 then
      [(-b + Real.sqrt discriminant) / (2 * a), (-b - Real.sqrt discriminant) / (2 * a)]
    else if discriminant = 0 then [-b / (2 * a)]
    else []

/-- Roots of the depressed cubic `t³ + pt + q`, shifted (`115-150`).  In the branch `q == 0` the square
root is NaN for positive `p`; the other square roots are taken of non-negative numbers and `acos` of
numbers in [-1, 1]. -/
noncomputable def depressedRoots (p q discriminant shift : ℝ) : List Float :=
  if p = 0 ∧ q = 0 then [some shift]
  else if p = 0 then [some (Math.cubeRoot (-q) + shift)]
  else if q = 0 then
    [some shift, (fsqrt (-1 * p)).map (· + shift), (fsqrt (-1 * p)).map (-· + shift)]
  else if discriminant = 0 then [some (3 * q / p + shift), some ((-3 * q) / (2 * p) + shift)]
  else if discriminant ≥ 0 then
    let u := Math.cubeRoot (-q / 2 + Real.sqrt discriminant)
    let v := Math.cubeRoot (-q / 2 - Real.sqrt discriminant)
    [some (u + v + shift)]
  else
    let m := 2 * Real.sqrt (-p / 3)
    let th := 1 / 3 * Real.arccos (((3 * q) / (2 * p)) * Real.sqrt (-3 / p))
    [some (m * Real.cos th + shift), some (m * Real.cos (th - (2 * Real.pi) / 3) + shift),
     some (m * Real.cos (th - (4 * Real.pi) / 3) + shift)]

/-- `Roots<CubicPolynomial>` (`93-152`).  With a zero leading coefficient every division is by zero:
if `b` is not zero then `p` is minus infinity and `q` infinite, so the discriminant is NaN; if `b` is
zero then `p`, `q` are NaN.  Either way all comparisons fail, the last branch is taken, and its
`acos` of NaN makes all three results NaN. -/
noncomputable def cubicRoots (poly : Coeffs ℝ) : List Float :=
  let a := poly 3
  let b := poly 2
  let c := poly 1
  let d := poly 0
  if a = 0 then [none, none, none]
  else
    let p := (3 * a * c - b * b) / (3 * a * a)
    let q := (2 * b * b * b - 9 * a * b * c + 27 * a * a * d) / (27 * a * a * a)
    let discriminant := p * p * p / 27 + q * q / 4
    let shift := -b / (3 * a)
    depressedRoots p q discriminant shift

/-- `Intersection<LinearFunction>` (`154-168`); `isApprox` with the default precision of `double`. -/
noncomputable def intersection (f g : Coeffs ℝ) : Outcome (ℝ × ℝ) :=
  let a0 := f 0
  let b0 := f 1
  let a1 := g 0
  let b1 := g 1
  open Classical in
  if Math.isApprox b0 b1 ((Math.dummyDouble : ℚ) : ℝ) then .throw .outOfRange
  else
    let x := (a0 - a1) / (b1 - b0)
    .ok (x, eval 1 f x)

/-- An `Intersection<LinearFunction>` object with its flag: a call (`polynomial.cpp:154-168`) sets it when it
is refused, before throwing, and never clears it; a new object has it cleared (`polynomial.hpp:1090`). -/
noncomputable def intersectWith (failed : Bool) (f g : Coeffs ℝ) : Bool × Outcome (ℝ × ℝ) :=
  match intersection f g with
  | .ok pt => (failed, .ok pt)
  | r => (true, r)

/-- `fail()` (`polynomial.hpp:1109`) of an object after calls, the exceptions being caught. -/
noncomputable def failAfter : List (Coeffs ℝ × Coeffs ℝ) → Bool → Bool
  | [], failed => failed
  | (f, g) :: calls, failed => failAfter calls (intersectWith failed f g).1

/-- `if ( test_max > max ) max = test_max;`. (`polynomial.cpp:194-216`.) -/
noncomputable def raise (test max : ℝ) : ℝ := if test > max then test else max
/-- `if ( test_min < min ) min = test_min;`. (`polynomial.cpp:246-268`.) -/
noncomputable def lower (test min : ℝ) : ℝ := if test < min then test else min

/-- Test of one candidate strictly inside the interval (`194-199`, `204-209`, `211-216`; for the minimum
`246-251`, `256-261`, `263-268`). -/
noncomputable def consider (better : ℝ → ℝ → ℝ) (p : Coeffs ℝ) (xb xe root best : ℝ) : ℝ :=
  if root > xb ∧ root < xe then better (eval 3 p root) best else best

/-- `Maximum<LinearFunction>` (`170-178`) and `Minimum<LinearFunction>` (`222-230`). -/
noncomputable def linearExtremum (better : ℝ → ℝ → ℝ) (xb xe : ℝ) (p : Coeffs ℝ) : ℝ :=
  better (eval 1 p xe) (eval 1 p xb)

/-- `Maximum<CubicPolynomial>` (`180-220`) and, with `<` for `>`, `Minimum<CubicPolynomial>` (`232-272`).
In the branch `a == 0` with `b == 0` the root is an infinity or NaN, which is never strictly inside the
interval. -/
noncomputable def cubicExtremum (better : ℝ → ℝ → ℝ) (xb xe : ℝ) (p : Coeffs ℝ) : ℝ :=
  let best := better (eval 3 p xe) (eval 3 p xb)
  let a := 3 * p 3
  let b := 2 * p 2
  let c := p 1
  if a = 0 then
    if b = 0 then best else consider better p xb xe (-c / b) best
  else
    let sqrtTerm := b * b - 4 * a * c
    if sqrtTerm > 0 then
      let best1 := consider better p xb xe ((-b + Real.sqrt (b * b - 4 * a * c)) / (2 * a)) best
      consider better p xb xe ((-b - Real.sqrt (b * b - 4 * a * c)) / (2 * a)) best1
    else best

/-- `Maximum<LinearFunction>` (`polynomial.cpp:170-178`). -/
noncomputable def maximumLinear := linearExtremum raise
/-- `Minimum<LinearFunction>` (`polynomial.cpp:222-230`). -/
noncomputable def minimumLinear := linearExtremum lower
/-- `Maximum<CubicPolynomial>` (`polynomial.cpp:180-220`). -/
noncomputable def maximumCubic := cubicExtremum raise
/-- `Minimum<CubicPolynomial>` (`polynomial.cpp:232-272`). -/
noncomputable def minimumCubic := cubicExtremum lower

end Ecl.Poly
