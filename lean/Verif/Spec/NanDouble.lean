import Verif.Spec.Nan
import Verif.Spec.Range

/-!
# `double` as the arithmetic of a program

The operations of `Spec/Nan.lean` on numbers, infinities and NaN, each followed by rounding to `double`.  From
`(2^54 - 1) 2^970` on, halfway between the largest `double` and 2^1024, a result is an infinity.  The functions of the C
library are taken to be rounded correctly; a zero that is divided by counts as positive.
-/
set_option autoImplicit false

namespace Ecl.Nan.Spec
open Ecl Ecl.Nan Ecl.Poly Ecl.Poly.Ext

/-- A result is rounded, or overflows. -/
noncomputable def post (fl : ℝ → ℝ) : Ext → Ext
  | num x => if (2 ^ 54 - 1) * (2 : ℝ) ^ (970 : ℤ) ≤ |x| then inf (sign false x) else num (fl x)
  | e => e

/-- `double` with the rounding `fl`. -/
noncomputable def double (fl : ℝ → ℝ) : Arith Ext where
  lit q := post fl (exact.lit q)
  add a b := post fl (exact.add a b)
  sub a b := post fl (exact.sub a b)
  mul a b := post fl (exact.mul a b)
  div a b := post fl (exact.div a b)
  neg := exact.neg
  abs := exact.abs
  sqrt a := post fl (exact.sqrt a)
  sinh a := post fl (exact.sinh a)
  cosh a := post fl (exact.cosh a)
  lt := exact.lt
  le := exact.le
  eq := exact.eq

end Ecl.Nan.Spec
