import Mathlib.Algebra.Order.Field.Basic
import Mathlib.Algebra.Order.AbsoluteValue.Basic
import Mathlib.Analysis.SpecialFunctions.Pow.Real

/-!
# Model of `ecl_math`: `simple.hpp`, `fuzzy.hpp`, `norms.hpp`

Numbers are exact: elements of a linearly ordered field (floating point types) or integers; rounding,
infinities and NaN are not modelled.
-/
set_option autoImplicit false

namespace Ecl.Math

/-- `sign` (`ecl_math/include/ecl/math/simple.hpp:37-49`). -/
def sign {α : Type} [LinearOrder α] [Zero α] (x : α) : Int :=
  if x > 0 then 1 else if x < 0 then -1 else 0

/-- `psign` (`60-68`). -/
def psign {α : Type} [LinearOrder α] [Zero α] (x : α) : Int := if x ≥ 0 then 1 else -1

/-- `nsign` (`79-87`). -/
def nsign {α : Type} [LinearOrder α] [Zero α] (x : α) : Int := if x > 0 then 1 else -1

/-- `cube_root` (`96-100`). -/
noncomputable def cubeRoot (x : ℝ) : ℝ := (psign x : ℝ) * |x| ^ ((1 : ℝ) / 3)

/-- `isApprox` for floating point `x` (`ecl_math/include/ecl/math/fuzzy.hpp:61-65`). -/
def isApprox {α : Type} [Field α] [LinearOrder α] (x y prec : α) : Prop :=
  |x - y| ≤ min |x| |y| * prec

/-- `isApproxOrLessThan` for floating point `x` (`67-70`). -/
def isApproxOrLessThan {α : Type} [Field α] [LinearOrder α] (x y prec : α) : Prop :=
  x ≤ y ∨ isApprox x y prec

/-- `isApprox` for integral `x` and `y` (`83-87`). -/
def isApproxInt (x y : Int) : Prop := x = y

/-- `isApprox` for integral `x` and floating point `y` (`83-98`); `dummy` is the default precision of
`y`'s type. -/
def isApproxIntFloat {α : Type} [Field α] [LinearOrder α] (dummy : α) (x : Int) (y prec : α) : Prop :=
  let p := if prec = 0 then dummy else prec
  |(x : α) - y| ≤ min |(x : α)| |y| * p

/-- `isApproxOrLessThan` for integral `x` (`99-102`). -/
def isApproxOrLessThanInt {α : Type} [Field α] [LinearOrder α] (x : Int) (y : α) : Prop := (x : α) ≤ y

/-- Default precisions (`ecl_type_traits/src/lib/numeric_limits.cpp:83-100`): `char` and `short`
types and `float` 1e-5, larger integral types 0, `double` 1e-12. -/
def dummySmall : ℚ := 1 / 100000
/-- `int` and larger integral types (`numeric_limits.cpp:83-100`). -/
def dummyInt : ℚ := 0
/-- `double` (`numeric_limits.cpp:83-100`). -/
def dummyDouble : ℚ := 1 / 1000000000000

/-- `euclidean_norm` (`ecl_math/include/ecl/math/norms.hpp:48-97`). -/
noncomputable def norm2 (x y : ℝ) : ℝ := Real.sqrt (x * x + y * y)
/-- `euclidean_norm` of three numbers (`norms.hpp:48-97`). -/
noncomputable def norm3 (x y z : ℝ) : ℝ := Real.sqrt (x * x + y * y + z * z)

end Ecl.Math
