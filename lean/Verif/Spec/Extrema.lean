import Mathlib.Data.Real.Basic
import Mathlib.Order.Interval.Set.Basic
import Mathlib.Algebra.BigOperators.Group.Finset.Basic

/-! # Extreme values up to an error -/
set_option autoImplicit false

namespace Ecl.Spec

/-- `m` is the greatest value of `f` on `[a, b]` up to the error `e`. -/
def MaxUpTo (e : ℝ) (f : ℝ → ℝ) (a b m : ℝ) : Prop :=
  (∃ x ∈ Set.Icc a b, |m - f x| ≤ e) ∧ ∀ x ∈ Set.Icc a b, f x ≤ m + e

/-- `m` is the least value of `f` on `[a, b]` up to the error `e`. -/
def MinUpTo (e : ℝ) (f : ℝ → ℝ) (a b m : ℝ) : Prop :=
  (∃ x ∈ Set.Icc a b, |m - f x| ≤ e) ∧ ∀ x ∈ Set.Icc a b, m - e ≤ f x

/-- The sum of `|c i| |x|^i`, for the end of `[a, b]` that is farther from 0. -/
noncomputable def size (n : ℕ) (c : ℕ → ℝ) (a b : ℝ) : ℝ :=
  ∑ i ∈ Finset.range (n + 1), |c i| * max |a| |b| ^ i

end Ecl.Spec
