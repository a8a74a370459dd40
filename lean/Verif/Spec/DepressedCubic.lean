import Mathlib.Data.Real.Basic

/-!
# The depressed form of a cubic

With `x = t - c 2 / (3 c 3)`, `c 0 + c 1 x + c 2 x^2 + c 3 x^3` is `c 3 (t^3 + p t + q)`.
-/
set_option autoImplicit false

namespace Ecl.Spec

/-- `p`. -/
noncomputable def depressedP (c : ℕ → ℝ) : ℝ := (3 * c 3 * c 1 - c 2 ^ 2) / (3 * c 3 ^ 2)

/-- `q`. -/
noncomputable def depressedQ (c : ℕ → ℝ) : ℝ :=
  (2 * c 2 ^ 3 - 9 * c 3 * c 2 * c 1 + 27 * c 3 ^ 2 * c 0) / (27 * c 3 ^ 3)

/-- The discriminant: positive if there is one real root, negative if there are three. -/
noncomputable def cardano (c : ℕ → ℝ) : ℝ := depressedP c ^ 3 / 27 + depressedQ c ^ 2 / 4

/-- The sum of the absolute values of the terms of `p`. -/
noncomputable def sizeP (c : ℕ → ℝ) : ℝ := (3 * |c 3 * c 1| + c 2 ^ 2) / (3 * c 3 ^ 2)

/-- The sum of the absolute values of the terms of `q`. -/
noncomputable def sizeQ (c : ℕ → ℝ) : ℝ :=
  (2 * |c 2| ^ 3 + 9 * |c 3 * c 2 * c 1| + 27 * |c 3 ^ 2 * c 0|) / (27 * |c 3| ^ 3)

/-- The same for the discriminant. -/
noncomputable def sizeCardano (c : ℕ → ℝ) : ℝ := sizeP c ^ 3 / 27 + sizeQ c ^ 2 / 4

end Ecl.Spec
