import Mathlib.Data.Real.Basic
import Mathlib.Algebra.Order.Floor.Ring

/-! # Double precision numbers -/
set_option autoImplicit false

namespace Ecl.Spec

/-- The numbers with a 53 bit significand, without limits for the exponent. -/
def IsDouble (x : ℝ) : Prop := ∃ m e : ℤ, |m| < 2 ^ 53 ∧ x = m * (2 : ℝ) ^ e

/-- Rounding to a nearest double (of two equally near ones, either). -/
def RoundsToNearest (fl : ℝ → ℝ) : Prop :=
  ∀ x, IsDouble (fl x) ∧ ∀ y, IsDouble y → |fl x - x| ≤ |y - x|

/-- The numbers with a 24 bit significand, without limits for the exponent. -/
def IsSingle (x : ℝ) : Prop := ∃ m e : ℤ, |m| < 2 ^ 24 ∧ x = m * (2 : ℝ) ^ e

/-- Rounding to a nearest single precision number. -/
def RoundsToSingle (fl : ℝ → ℝ) : Prop :=
  ∀ x, IsSingle (fl x) ∧ ∀ y, IsSingle y → |fl x - x| ≤ |y - x|

end Ecl.Spec
