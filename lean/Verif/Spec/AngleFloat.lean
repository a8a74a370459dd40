import Verif.Spec.Double
import Mathlib.Analysis.SpecialFunctions.Trigonometric.Basic

/-! # Directions, approximately -/
set_option autoImplicit false

namespace Ecl.AngleFloat.Spec
open Real

/-- `a` and `b` differ by a whole number of turns, give or take `ε`. -/
def Near (ε a b : ℝ) : Prop := ∃ k : ℤ, |a - (b + k * (2 * π))| ≤ ε

/-- The float nearest to π.  It is larger than π. -/
noncomputable def piS : ℝ := 13176795 / 2 ^ 22

end Ecl.AngleFloat.Spec
