import Verif.Spec.Rounding

/-! # Rounding of ties as the floating point standard has it -/
set_option autoImplicit false

namespace Ecl.Spec

/-- A number halfway between two numbers of `p` bits is rounded to the one with the even significand: `4 j ± 1` spacings
halved to `4 j`. -/
def TiesToEven (p : ℕ) (fl : ℝ → ℝ) : Prop :=
  ∀ j s e : ℤ, s = 1 ∨ s = -1 → 2 ^ p < |4 * j + s| → |4 * j + s| < 2 ^ (p + 1) →
    fl ((4 * j + s : ℤ) * (2 : ℝ) ^ e) = (4 * j : ℤ) * (2 : ℝ) ^ e

end Ecl.Spec
