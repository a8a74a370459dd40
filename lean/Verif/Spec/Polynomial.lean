import Mathlib.Algebra.Polynomial.Derivative
import Mathlib.Algebra.Polynomial.Eval.Defs

/-! # The polynomial an array of coefficients stands for -/
set_option autoImplicit false

namespace Ecl.Spec
open Polynomial

/-- `c 0 + c 1 X + ... + c n Xⁿ`. -/
noncomputable def toPoly {K : Type} [CommRing K] (n : ℕ) (c : ℕ → K) : K[X] :=
  ∑ i ∈ Finset.range (n + 1), C (c i) * X ^ i

end Ecl.Spec
