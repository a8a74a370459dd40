import Verif.Core.Outcome
import Verif.Model.Pascal
import Mathlib.Logic.Function.Basic
import Mathlib.Data.Rat.Defs

/-!
# Splines over an arbitrary floating point arithmetic

The same functions as in `Model/SmoothLinearSpline.lean` and `Model/TensionSpline.lean`, but the operations
on `double` are parameters, applied in the order the code applies them.  What is proved here for all
arithmetics in which NaN spreads holds for `double` with its rounding, overflow and signed zeros.
-/
set_option autoImplicit false

namespace Ecl.Nan
open Ecl

/-- The operations on `double` that the splines use (`polynomial.hpp:189-425`,
`polynomial_blueprints.cpp:45-186`, `polynomial.cpp:154-272`, `tension_function.cpp:26-52`,
`tension_spline_blueprints.cpp:41-96`, `trajectory.cpp:36-825`).  `lit` is a constant of the program or a
converted integer. -/
structure Arith (F : Type) where
  lit : ℚ → F
  add : F → F → F
  sub : F → F → F
  mul : F → F → F
  div : F → F → F
  neg : F → F
  abs : F → F
  sqrt : F → F
  sinh : F → F
  cosh : F → F
  lt : F → F → Bool
  le : F → F → Bool
  eq : F → F → Bool

variable {F : Type} (A : Arith F)

/-- The coefficients of a polynomial, lowest first (`polynomial.hpp:267`). -/
abbrev Coeffs (F : Type) := ℕ → F

/-- Entry of an array with a valid index. (Used at `smooth_linear_spline.cpp:53-80`.) -/
def get (l : List F) (i : ℕ) : F := l.getD i (A.lit 0)

/-- The loop of `Polynomial<N>::operator()` (`polynomial.hpp:420-423`), `left` passes from `i` on. -/
def evalLoop (p : Coeffs F) (x : F) : ℕ → ℕ → F → F → F
  | 0, _, _, value => value
  | left + 1, i, tmp, value => evalLoop p x left (i + 1) (A.mul tmp x) (A.add value (A.mul (p i) tmp))

/-- `Polynomial<N>::operator()` (`polynomial.hpp:415-425`). -/
def eval (n : ℕ) (p : Coeffs F) (x : F) : F := evalLoop A p x n 1 x (p 0)

/-- `Polynomial<N>::derivative()` (`polynomial.hpp:189-196`). -/
def derivative (p : Coeffs F) : Coeffs F := fun i => A.mul (A.lit (i + 1)) (p (i + 1))

/-- `LinearFunction::derivative(x)` (`polynomial.hpp:427-434`, with `Polynomial<0>::operator()`, `375-377`). -/
def lineSlope (p : Coeffs F) : F := derivative A p 0

/-- The inner loop of `shift_horizontal` (`polynomial.hpp:405-409`): `row` are the entries left of the row of
Pascal's triangle. -/
def shiftLoop (p : Coeffs F) (shift : F) : List Int → ℕ → F → F → F
  | [], _, _, c => c
  | k :: row, j, tmp, c =>
    shiftLoop p shift row (j + 1) (A.mul tmp (A.mul (A.lit (-1)) shift)) (A.add c (A.mul (A.mul (A.lit k) tmp) (p j)))

/-- `QuinticPolynomial::shift_horizontal` (`polynomial.hpp:395-411`).  Coefficient `i` is made of itself and
those above it, which are still the old ones. -/
def shiftHorizontal (p : Coeffs F) (shift : F) : Coeffs F := fun i =>
  if i < 5 then shiftLoop A p shift ((Pascal.row 5 i Pascal.table5).drop 1) (i + 1) (A.mul (A.lit (-1)) shift) (p i) else p i

/-- A polynomial with these coefficients. (`polynomial_blueprints.cpp:53`, `70`, `166`.) -/
def ofList (l : List F) : Coeffs F := fun i => l.getD i (A.lit 0)

/-- `LinearInterpolation::apply` (`polynomial_blueprints.cpp:45-54`). -/
def linearInterpolation (xi yi xf yf : F) : Coeffs F :=
  let a1 := A.div (A.sub yf yi) (A.sub xf xi)
  let a0 := A.sub yi (A.mul a1 xi)
  ofList A [a0, a1]

/-- `LinearPointSlopeForm::apply` (`polynomial_blueprints.cpp:62-71`). -/
def pointSlopeForm (xf yf slope : F) : Coeffs F := ofList A [A.sub yf (A.mul slope xf), slope]

/-- `QuinticInterpolation::apply` (`polynomial_blueprints.cpp:147-186`). -/
def quinticInterpolation (xi yi ydi yddi xf yf ydf yddf : F) : Coeffs F :=
  let dx := A.sub xf xi
  let d2x := A.mul dx dx
  let d3x := A.mul d2x dx
  let d4x := A.mul d3x dx
  let d5x := A.mul d4x dx
  let two := A.lit 2
  let three := A.lit 3
  let a2 := A.div yddi two
  let a3 := A.div
    (A.sub (A.sub (A.mul (A.lit 20) (A.sub yf yi)) (A.mul (A.add (A.mul (A.lit 8) ydf) (A.mul (A.lit 12) ydi)) dx))
      (A.mul (A.mul (A.sub (A.mul three yddi) yddf) dx) dx))
    (A.mul two d3x)
  let a4 := A.div
    (A.add (A.add (A.mul (A.lit 30) (A.sub yi yf)) (A.mul (A.add (A.mul (A.lit 14) ydf) (A.mul (A.lit 16) ydi)) dx))
      (A.mul (A.mul (A.add (A.mul (A.lit (-2)) yddf) (A.mul three yddi)) dx) dx))
    (A.mul two d4x)
  let a5 := A.div
    (A.sub (A.sub (A.mul (A.lit 12) (A.sub yf yi)) (A.mul (A.add (A.mul (A.lit 6) ydf) (A.mul (A.lit 6) ydi)) dx))
      (A.mul (A.mul (A.sub yddi yddf) dx) dx))
    (A.mul two d5x)
  let p := ofList A [yi, ydi, a2, a3, a4, a5]
  if A.eq xi (A.lit 0) then p else shiftHorizontal A p xi

/-- `if ( test_max > max ) max = test_max;` (`polynomial.cpp:185-215`). -/
def raise (test max : F) : F := if A.lt max test then test else max

/-- `if ( test_min < min ) min = test_min;` (`polynomial.cpp:237-267`). -/
def lower (test min : F) : F := if A.lt test min then test else min

/-- Test of one candidate (`polynomial.cpp:194-199`, `204-209`, `211-216`, `246-251`, `256-261`, `263-268`). -/
def consider (better : F → F → F) (p : Coeffs F) (xb xe root best : F) : F :=
  if A.lt xb root && A.lt root xe then better (eval A 3 p root) best else best

/-- `Maximum<CubicPolynomial>` (`polynomial.cpp:180-220`) and `Minimum<CubicPolynomial>` (`232-272`). -/
def cubicExtremum (better : F → F → F) (xb xe : F) (p : Coeffs F) : F :=
  let best := better (eval A 3 p xe) (eval A 3 p xb)
  let a := A.mul (A.lit 3) (p 3)
  let b := A.mul (A.lit 2) (p 2)
  let c := p 1
  let two := A.mul (A.lit 2) a
  let term := A.sub (A.mul b b) (A.mul (A.mul (A.lit 4) a) c)
  if A.eq a (A.lit 0) then consider A better p xb xe (A.div (A.neg c) b) best
  else if A.lt (A.lit 0) term then
    let best1 := consider A better p xb xe (A.div (A.add (A.neg b) (A.sqrt term)) two) best
    consider A better p xb xe (A.div (A.sub (A.neg b) (A.sqrt term)) two) best1
  else best

/-- The bound on the second derivative of a quintic (`smooth_linear_spline.cpp:87-88`, `trajectory.cpp:166-169`,
`232-235`, `631-632`, `713-714`). -/
def within (amax xl xr : F) (c : Coeffs F) : Bool :=
  let second := derivative A (derivative A c)
  A.lt (A.abs (cubicExtremum A (raise A) xl xr second)) (A.abs amax) &&
  A.lt (A.abs (cubicExtremum A (lower A) xl xr second)) (A.abs amax)

/-! ## `SmoothLinearSpline` -/

/-- `SmoothLinearSpline` (`smooth_linear_spline.hpp:166-168`). -/
structure Smooth (F : Type) where
  domain : List F
  segments : List (Coeffs F)
  corners : List (Coeffs F)

/-- `segments[i]` (`smooth_linear_spline.cpp:53-55`). -/
def lineAt (x y : ℕ → F) (i : ℕ) : Coeffs F := linearInterpolation A (x i) (y i) (x (i + 1)) (y (i + 1))

/-- `x_l` of attempt `j` at corner `i` (`smooth_linear_spline.cpp:71-75`). -/
def leftEnd (x : ℕ → F) (i j : ℕ) : F :=
  A.sub (x i) (A.div (A.mul (A.lit j) (A.sub (x i) (x (i - 1)))) (A.lit (if i = 1 then 5 else 10)))

/-- `x_r` of attempt `j` at corner `i` of `n` segments (`smooth_linear_spline.cpp:76-80`). -/
def rightEnd (x : ℕ → F) (n i j : ℕ) : F :=
  A.add (x i) (A.div (A.mul (A.lit j) (A.sub (x (i + 1)) (x i))) (A.lit (if i = n - 1 then 5 else 10)))

/-- The quintic of attempt `j` at corner `i` (`smooth_linear_spline.cpp:81-86`). -/
def attempt (x y : ℕ → F) (n i j : ℕ) : Coeffs F :=
  let xl := leftEnd A x i j
  let xr := rightEnd A x n i j
  let before := lineAt A x y (i - 1)
  let after := lineAt A x y i
  quinticInterpolation A xl (eval A 1 before xl) (lineSlope A before) (A.lit 0)
    xr (eval A 1 after xr) (lineSlope A after) (A.lit 0)

/-- The loop over `j` (`smooth_linear_spline.cpp:69-107`), `left` passes from `j` on; `none` if the last one
throws. -/
def tries (x y : ℕ → F) (amax : F) (n i : ℕ) : ℕ → ℕ → Option (F × F × Coeffs F)
  | 0, _ => none
  | left + 1, j =>
    let c := attempt A x y n i j
    if within A amax (leftEnd A x i j) (rightEnd A x n i j) c then some (leftEnd A x i j, rightEnd A x n i j, c)
    else tries x y amax n i left (j + 1)

/-- Corner `i` (`smooth_linear_spline.cpp:63-108`). -/
def corner (x y : ℕ → F) (amax : F) (n i : ℕ) : Option (F × F × Coeffs F) :=
  let before := lineAt A x y (i - 1)
  let after := lineAt A x y i
  if A.eq (before 1) (after 1) then
    some (x i, x i, ofList A [before 0, before 1, A.lit 0, A.lit 0, A.lit 0, A.lit 0])
  else tries A x y amax n i 5 1

/-- What a constructor does that throws `DataException<int>`: the flag and the datum.
(`smooth_linear_spline.cpp:30-110`.) -/
inductive Made (α : Type) where
  | ok (a : α)
  | data (e : Flag) (k : ℕ)
  | ub

/-- The loop over the corners (`smooth_linear_spline.cpp:62-109`), `left` passes from `i` on. -/
def cornerLoop (x y : ℕ → F) (amax : F) (n : ℕ) : ℕ → ℕ → Made (List (F × F × Coeffs F))
  | 0, _ => .ok []
  | left + 1, i =>
    match corner A x y amax n i with
    | none => .data .constructorError i
    | some c =>
      match cornerLoop x y amax n left (i + 1) with
      | .ok cs => .ok (c :: cs)
      | .data e k => .data e k
      | .ub => .ub

/-- The constructor (`smooth_linear_spline.cpp:30-110`).  With fewer than two points `n-1` or `n` wraps around
and a huge array is requested; that is not modelled further. -/
def smooth (xs ys : List F) (amax : F) : Made (Smooth F) :=
  if xs.length ≠ ys.length then .data .outOfRange 0
  else if xs.length < 2 then .ub
  else
    let n := xs.length - 1
    match cornerLoop A (get A xs) (get A ys) amax n (n - 1) 1 with
    | .ok cs =>
      .ok { domain := get A xs 0 :: (cs.flatMap fun c => [c.1, c.2.1]) ++ [get A xs n]
            segments := (List.range n).map (lineAt A (get A xs) (get A ys))
            corners := cs.map fun c => c.2.2 }
    | .data e k => .data e k
    | .ub => .ub

/-! ## `TensionSpline` -/

/-- `TensionFunction` (`tension_function.hpp:202-204`). -/
structure Func (F : Type) where
  x0 : F
  xf : F
  y0 : F
  yf : F
  z0 : F
  zf : F

/-- `TensionFunction::operator()` (`tension_function.cpp:45-52`). -/
def Func.value (f : Func F) (tau x : F) : F :=
  let h := A.sub f.xf f.x0
  let v := A.div
    (A.add (A.mul f.z0 (A.sinh (A.mul tau (A.sub f.xf x)))) (A.mul f.zf (A.sinh (A.mul tau (A.sub x f.x0)))))
    (A.mul (A.mul tau tau) (A.sinh (A.mul tau h)))
  let v := A.add v (A.div (A.mul (A.sub f.y0 (A.div f.z0 (A.mul tau tau))) (A.sub f.xf x)) h)
  A.add v (A.div (A.mul (A.sub f.yf (A.div f.zf (A.mul tau tau))) (A.sub x f.x0)) h)

/-- `TensionFunction::derivative` (`tension_function.cpp:26-34`). -/
def Func.slope (f : Func F) (tau x : F) : F :=
  let h := A.sub f.xf f.x0
  let v := A.div
    (A.add (A.mul (A.mul (A.mul (A.lit (-1)) tau) f.z0) (A.cosh (A.mul tau (A.sub f.xf x))))
      (A.mul (A.mul tau f.zf) (A.cosh (A.mul tau (A.sub x f.x0)))))
    (A.mul (A.mul tau tau) (A.sinh (A.mul tau h)))
  let v := A.add v (A.div (A.mul (A.lit (-1)) (A.sub f.y0 (A.div f.z0 (A.mul tau tau)))) h)
  A.add v (A.div (A.sub f.yf (A.div f.zf (A.mul tau tau))) h)

/-- `TensionFunction::dderivative` (`tension_function.cpp:37-43`). -/
def Func.curvature (f : Func F) (tau x : F) : F :=
  let h := A.sub f.xf f.x0
  A.div
    (A.add (A.mul (A.mul (A.mul tau tau) f.z0) (A.sinh (A.mul tau (A.sub f.xf x))))
      (A.mul (A.mul (A.mul tau tau) f.zf) (A.sinh (A.mul tau (A.sub x f.x0)))))
    (A.mul (A.mul tau tau) (A.sinh (A.mul tau h)))

/-- `TensionSpline`. (Members read at `tension_spline.cpp:29-54`.) -/
structure Tension (F : Type) where
  domain : List F
  functions : List (Func F)
  tension : F

/-- An access behind the end of an array: an exception in a debug build (`array.hpp`, used at
`tension_spline.cpp:32-35`). -/
def beyond {α : Type} (mode : Mode) : Outcome α :=
  match mode with
  | .debug => .throw .outOfRange
  | .release => .ub

/-- `while ( x > discretised_domain[index+1] ) ++index;` on the part of the array from `index+1` on
(`tension_spline.cpp:32-34`). -/
def findFrom (mode : Mode) (x : F) : List F → ℕ → Outcome ℕ
  | [], _ => beyond mode
  | d :: ds, index => if A.lt d x then findFrom mode x ds (index + 1) else .ok index

/-- Domain check of a debug build and search for the segment (`tension_spline.cpp:30-34`, `39-43`, `48-52`). -/
def segment (mode : Mode) (domain : List F) (x : F) : Outcome ℕ :=
  match mode, domain.head?, domain.getLast? with
  | .debug, some f, some b =>
    if A.le f x && A.le x b then findFrom A .debug x (domain.drop 1) 0 else .throw .outOfRange
  | .debug, _, _ => .throw .outOfRange
  | .release, _, _ => findFrom A .release x (domain.drop 1) 0

/-- The call of the function of a segment (`tension_spline.cpp:29-54`). -/
def Tension.call (f : Func F → F → F → F) (mode : Mode) (s : Tension F) (x : F) : Outcome F :=
  (segment A mode s.domain x).bind fun index =>
    match s.functions[index]? with
    | some c => .ok (f c s.tension x)
    | none => beyond mode

/-- `operator()` (`tension_spline.cpp:29-36`). -/
def Tension.value := Tension.call A (Func.value A)
/-- `derivative` (`tension_spline.cpp:38-45`). -/
def Tension.slope := Tension.call A (Func.slope A)
/-- `dderivative` (`tension_spline.cpp:47-54`). -/
def Tension.curvature := Tension.call A (Func.curvature A)

/-- `h[i]` (`tension_spline_blueprints.cpp:65`). -/
def hAt (x : ℕ → F) (i : ℕ) : F := A.sub (x (i + 1)) (x i)
/-- `a[i]` (`tension_spline_blueprints.cpp:66`). -/
def aAt (tau : F) (x : ℕ → F) (i : ℕ) : F :=
  A.sub (A.div (A.lit 1) (hAt A x i)) (A.div tau (A.sinh (A.mul tau (hAt A x i))))
/-- `beta[i]` (`tension_spline_blueprints.cpp:67`). -/
def betaAt (tau : F) (x : ℕ → F) (i : ℕ) : F :=
  A.sub (A.mul tau (A.div (A.cosh (A.mul tau (hAt A x i))) (A.sinh (A.mul tau (hAt A x i)))))
    (A.div (A.lit 1) (hAt A x i))
/-- `gamma[i]` (`tension_spline_blueprints.cpp:68`). -/
def gammaAt (tau : F) (x y : ℕ → F) (i : ℕ) : F :=
  A.div (A.mul (A.mul tau tau) (A.sub (y (i + 1)) (y i))) (hAt A x i)

/-- `u[i]` (`tension_spline_blueprints.cpp:82-87`), entries before the first one not meant. -/
def uAt (a beta : ℕ → F) : ℕ → F
  | 0 => A.lit 0
  | 1 => A.add (beta 1) (beta 0)
  | i + 2 => A.sub (A.add (beta (i + 2)) (beta (i + 1))) (A.div (A.mul (a (i + 1)) (a (i + 1))) (uAt a beta (i + 1)))

/-- `v[i]` (`tension_spline_blueprints.cpp:83-87`). -/
def vAt (a beta gamma : ℕ → F) : ℕ → F
  | 0 => A.lit 0
  | 1 => A.sub (gamma 1) (gamma 0)
  | i + 2 => A.sub (A.sub (gamma (i + 2)) (gamma (i + 1)))
      (A.div (A.mul (a (i + 1)) (vAt a beta gamma (i + 1))) (uAt A a beta (i + 1)))

/-- `yddot_data[n - back]` (`tension_spline_blueprints.cpp:91-94`), counted from the last entry, which is 0. -/
def zBack (a u v : ℕ → F) (n : ℕ) : ℕ → F
  | 0 => A.lit 0
  | back + 1 =>
    A.div (A.sub (v (n - (back + 1))) (A.mul (a (n - (back + 1))) (zBack a u v n back))) (u (n - (back + 1)))

/-- `yddot_data[i]` (`tension_spline_blueprints.cpp:91-95`) of `n` segments. -/
def zAt (tau : F) (x y : ℕ → F) (n i : ℕ) : F :=
  if i = 0 then A.lit 0
  else
    zBack A (aAt A tau x) (uAt A (aAt A tau x) (betaAt A tau x))
      (vAt A (aAt A tau x) (betaAt A tau x) (gammaAt A tau x y)) n (n - i)

/-- `TensionSpline::Natural` (`tension_spline_blueprints.cpp:41-128`).  With fewer than three points the arrays
are accessed behind their ends. -/
def natural (mode : Mode) (xs ys : List F) (tau : F) : Outcome (Tension F) :=
  if mode = .debug ∧ xs.length ≠ ys.length then .throw .outOfRange
  else if xs.length < 3 ∨ ys.length < xs.length then beyond mode
  else
    let x := get A xs
    let y := get A ys
    let n := xs.length - 1
    .ok { domain := xs
          functions := (List.range n).map fun i =>
            { x0 := x i, xf := x (i + 1), y0 := y i, yf := y (i + 1), z0 := zAt A tau x y n i, zf := zAt A tau x y n (i + 1) }
          tension := tau }

end Ecl.Nan
