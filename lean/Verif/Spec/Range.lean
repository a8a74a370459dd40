import Mathlib.Data.Real.Basic

/-! # Floating point numbers with limits for the exponent -/
set_option autoImplicit false

namespace Ecl.Spec

/-- The numbers of a format with `p` bits: `m * 2 ^ e` with `lo ≤ e` and `e + p ≤ hi`.  Subnormal numbers are among
them. -/
def InFormat (p : ℕ) (lo hi : ℤ) (x : ℝ) : Prop :=
  ∃ m e : ℤ, |m| < 2 ^ p ∧ lo ≤ e ∧ e + p ≤ hi ∧ x = m * (2 : ℝ) ^ e

/-- The largest of them. -/
noncomputable def largest (p : ℕ) (hi : ℤ) : ℝ := (2 ^ p - 1) * (2 : ℝ) ^ (hi - p)

/-- Rounding to a nearest number of the format.  What happens beyond the largest one (overflow) is left open, so that
whatever is proved with it holds for every treatment of overflow. -/
def RoundsIn (p : ℕ) (lo hi : ℤ) (fl : ℝ → ℝ) : Prop :=
  ∀ x, |x| ≤ largest p hi → InFormat p lo hi (fl x) ∧ ∀ y, InFormat p lo hi y → |fl x - x| ≤ |y - x|

/-- Rounding to `double` (IEEE 754 binary64). -/
def RoundsDouble (fl : ℝ → ℝ) : Prop := RoundsIn 53 (-1074) 1024 fl

/-- Rounding to `float` (IEEE 754 binary32). -/
def RoundsFloat (fl : ℝ → ℝ) : Prop := RoundsIn 24 (-149) 128 fl

end Ecl.Spec
