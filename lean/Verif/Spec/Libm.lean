import Verif.Model.CubicFloat
import Mathlib.Analysis.SpecialFunctions.Trigonometric.Inverse

/-! # An accurate C library -/
set_option autoImplicit false

namespace Ecl.Spec

/-- `acos`, `cos` and the constant pi are off by at most two units in the last place of 2, 1 and 2; the cube of a cube
root by 2^-42 (raising to the power of the rounded 1/3 is not more accurate for very large and small numbers). -/
structure AccurateLibm (m : CubicFloat.Libm) : Prop where
  acos : ∀ x : ℝ, |x| ≤ 1 → |m.acos x - Real.arccos x| ≤ 4 / 2 ^ 53
  cos : ∀ x : ℝ, |m.cos x - Real.cos x| ≤ 2 / 2 ^ 53
  cubeRoot : ∀ x : ℝ, |m.cubeRoot x ^ 3 - x| ≤ 1 / 2 ^ 42 * |x|
  pi : |m.pi - Real.pi| ≤ 4 / 2 ^ 53

end Ecl.Spec
