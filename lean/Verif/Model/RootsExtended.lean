import Verif.Model.Polynomial

/-!
# Cubic roots and extrema with infinities and NaN

The same functions as in `Model/Polynomial.lean`, but with the special values of `double`, so that what
a division by zero does is computed and not put in by hand.  Arithmetic on numbers is exact (no rounding,
no overflow); the sign of a zero that is divided by is not known, and any sign is possible.
-/
set_option autoImplicit false

namespace Ecl.Poly
open Ecl

/-- A `double`: NaN, an infinity, or a number (the values computed at `polynomial.cpp:93-152`, `180-272`). -/
inductive Ext where
  | nan
  | inf (negative : Bool)
  | num (x : ℝ)

namespace Ext
open Classical

/-- The sign of a number, `z` for zero (IEEE 754; used at `polynomial.cpp:108-147`). -/
noncomputable def sign (z : Bool) (x : ℝ) : Bool := if x = 0 then z else decide (x < 0)

/-- `+` (IEEE 754; used at `polynomial.cpp:109-149`). -/
noncomputable def add : Ext → Ext → Ext
  | num x, num y => num (x + y)
  | nan, _ | _, nan => nan
  | inf s, num _ => inf s
  | num _, inf s => inf s
  | inf s, inf t => if s = t then inf s else nan

/-- Unary `-` (IEEE 754; used at `polynomial.cpp:114-147`). -/
noncomputable def neg : Ext → Ext
  | num x => num (-x)
  | nan => nan
  | inf s => inf (!s)

/-- Binary `-` (IEEE 754; used at `polynomial.cpp:108-147`). -/
noncomputable def sub (a b : Ext) : Ext := a.add b.neg

/-- `*` (IEEE 754; used at `polynomial.cpp:108-147`). -/
noncomputable def mul : Ext → Ext → Ext
  | num x, num y => num (x * y)
  | nan, _ | _, nan => nan
  | inf s, num y => if y = 0 then nan else inf (s.xor (sign false y))
  | num x, inf s => if x = 0 then nan else inf (s.xor (sign false x))
  | inf s, inf t => inf (s.xor t)

/-- `/` (IEEE 754; used at `polynomial.cpp:108-147`, `193`, `245`); `z` is the sign of the divisor if that
is a zero. -/
noncomputable def div (z : Bool) : Ext → Ext → Ext
  | nan, _ | _, nan => nan
  | num x, num y => if y = 0 then (if x = 0 then nan else inf ((sign false x).xor z)) else num (x / y)
  | num _, inf _ => num 0
  | inf s, num y => inf (s.xor (sign z y))
  | inf _, inf _ => nan

/-- `sqrt` (C library; used at `polynomial.cpp:129-147`). -/
noncomputable def sqrt : Ext → Ext
  | nan => nan
  | inf s => if s then nan else inf false
  | num x => if x < 0 then nan else num (Real.sqrt x)

/-- `cos` (C library; used at `polynomial.cpp:145-147`). -/
noncomputable def cos : Ext → Ext
  | num x => num (Real.cos x)
  | _ => nan

/-- `acos` (C library; used at `polynomial.cpp:145-147`). -/
noncomputable def acos : Ext → Ext
  | num x => if -1 ≤ x ∧ x ≤ 1 then num (Real.arccos x) else nan
  | _ => nan

/-- `ecl::cube_root` (`ecl_math/include/ecl/math/simple.hpp:96-100`). -/
noncomputable def cubeRoot : Ext → Ext
  | num x => num (Math.cubeRoot x)
  | e => e

/-- `==` (IEEE 754; used at `polynomial.cpp:115-130`). -/
noncomputable def eq : Ext → Ext → Bool
  | num x, num y => decide (x = y)
  | inf s, inf t => s == t
  | _, _ => false

/-- `>` (IEEE 754; used at `polynomial.cpp:174-268`). -/
noncomputable def gt : Ext → Ext → Bool
  | num x, num y => decide (x > y)
  | num _, inf s => s
  | inf s, num _ => !s
  | inf s, inf t => !s && t
  | _, _ => false

/-- `>=` (IEEE 754; used at `polynomial.cpp:135`). -/
noncomputable def ge (a b : Ext) : Bool := a.gt b || a.eq b

end Ext

open Ext in
/-- `Roots<CubicPolynomial>` (`polynomial.cpp:93-152`) line by line; `z` has the signs of the zeros that
the divisions meet.  (If `3*a*a` is zero it is a positive zero, the product of two zeros of one sign.) -/
noncomputable def cubicRootsExt (z : ℕ → Bool) (poly : Coeffs ℝ) : List Ext :=
  let a := num (poly 3)
  let b := num (poly 2)
  let c := num (poly 1)
  let d := num (poly 0)
  let p := div false (sub (mul (mul (num 3) a) c) (mul b b)) (mul (mul (num 3) a) a)
  let q := div (z 1) (add (sub (mul (mul (mul (num 2) b) b) b) (mul (mul (mul (num 9) a) b) c))
    (mul (mul (mul (num 27) a) a) d)) (mul (mul (mul (num 27) a) a) a)
  let discriminant := add (div false (mul (mul p p) p) (num 27)) (div false (mul q q) (num 4))
  let shift := div (z 2) (neg b) (mul (num 3) a)
  if p.eq (num 0) && q.eq (num 0) then [shift]
  else if p.eq (num 0) then [add (cubeRoot (neg q)) shift]
  else if q.eq (num 0) then
    [shift, add (sqrt (mul (num (-1)) p)) shift, add (neg (sqrt (mul (num (-1)) p))) shift]
  else if discriminant.eq (num 0) then
    [add (div (z 3) (mul (num 3) q) p) shift, add (div (z 4) (mul (num (-3)) q) (mul (num 2) p)) shift]
  else if discriminant.ge (num 0) then
    let u := cubeRoot (add (div false (neg q) (num 2)) (sqrt discriminant))
    let v := cubeRoot (sub (div false (neg q) (num 2)) (sqrt discriminant))
    [add (add u v) shift]
  else
    let m := mul (num 2) (sqrt (div false (neg p) (num 3)))
    let th := mul (num (1 / 3)) (acos (mul (div (z 5) (mul (num 3) q) (mul (num 2) p)) (sqrt (div (z 6) (num (-3)) p))))
    [add (mul m (cos th)) shift,
     add (mul m (cos (sub th (num (2 * Real.pi / 3))))) shift,
     add (mul m (cos (sub th (num (4 * Real.pi / 3))))) shift]

open Ext in
/-- The test of one candidate in `Maximum<CubicPolynomial>` and `Minimum<CubicPolynomial>`
(`polynomial.cpp:194-199`, `204-209`, `211-216`, `246-251`, `256-261`, `263-268`); `v` is what the test
makes of the best value so far if the candidate is not a number. -/
noncomputable def considerExt (v : ℝ) (better : ℝ → ℝ → ℝ) (p : Coeffs ℝ) (xb xe : ℝ) (root : Ext) (best : ℝ) : ℝ :=
  if root.gt (num xb) && (num xe).gt root then
    match root with
    | num x => better (eval 3 p x) best
    | _ => v
  else best

open Ext in
/-- `Maximum<CubicPolynomial>` (`polynomial.cpp:180-220`) and, with `<` for `>`, `Minimum<CubicPolynomial>`
(`232-272`) line by line. -/
noncomputable def cubicExtremumExt (z : ℕ → Bool) (v : ℝ) (better : ℝ → ℝ → ℝ) (xb xe : ℝ) (p : Coeffs ℝ) : ℝ :=
  let best := better (eval 3 p xe) (eval 3 p xb)
  let a := mul (num 3) (num (p 3))
  let b := mul (num 2) (num (p 2))
  let c := num (p 1)
  if a.eq (num 0) then considerExt v better p xb xe (div (z 0) (neg c) b) best
  else
    let sqrtTerm := sub (mul b b) (mul (mul (num 4) a) c)
    if sqrtTerm.gt (num 0) then
      let best1 := considerExt v better p xb xe (div (z 1) (add (neg b) (sqrt sqrtTerm)) (mul (num 2) a)) best
      considerExt v better p xb xe (div (z 2) (sub (neg b) (sqrt sqrtTerm)) (mul (num 2) a)) best1
    else best

end Ecl.Poly
