import Verif.Core.Outcome
import Verif.Core.CInt
import Mathlib.Data.Real.Archimedean

/-!
# Conversions of floating point numbers to integers

A floating point number is its value.
-/
set_option autoImplicit false

namespace Ecl

/-- The integer a floating point number is cut off to by a cast. -/
noncomputable def truncate (x : ℝ) : Int := if 0 ≤ x then ⌊x⌋ else ⌈x⌉

/-- `static_cast<long>` of a `double`: undefined if the value does not fit. -/
noncomputable def castLong (x : ℝ) : Outcome Int := if InLong (truncate x) then .ok (truncate x) else .ub

/-- `static_cast<int>` of a `double`: undefined if the value does not fit. -/
noncomputable def castInt (x : ℝ) : Outcome Int := if InInt (truncate x) then .ok (truncate x) else .ub

/-- The value of an `int` expression: undefined if it does not fit. -/
def intValue (i : Int) : Outcome Int := if InInt i then .ok i else .ub

end Ecl
