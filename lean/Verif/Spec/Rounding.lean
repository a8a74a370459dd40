import Mathlib.Data.Real.Basic

/-! # Floating point numbers of any precision -/
set_option autoImplicit false

namespace Ecl.Spec

/-- The numbers with a significand of `p` bits, without limits for the exponent: 24 for float, 53 for double. -/
def IsFloat (p : ℕ) (x : ℝ) : Prop := ∃ m e : ℤ, |m| < 2 ^ p ∧ x = m * (2 : ℝ) ^ e

/-- Rounding to a nearest number of `p` bits (of two equally near ones, either). -/
def Rounds (p : ℕ) (fl : ℝ → ℝ) : Prop :=
  ∀ x, IsFloat p (fl x) ∧ ∀ y, IsFloat p y → |fl x - x| ≤ |y - x|

end Ecl.Spec
