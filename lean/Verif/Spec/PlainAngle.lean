import Verif.Spec.Special

/-! # Angles as numbers that are never wrapped -/
set_option autoImplicit false

namespace Ecl.Spec
open Ecl Ecl.Poly Real

/-- The number, if the value is one. -/
noncomputable def numberOf : Ext → ℝ
  | .num x => x
  | _ => 0

/-- What an operation on angles does to plain numbers. -/
noncomputable def plainly (v : ℝ) : Special.AngleOp → ℝ
  | .assign x => numberOf x
  | .degrees x => numberOf x * (π / 180)
  | .addAssign x | .add x => v + numberOf x
  | .subAssign x | .sub x => v - numberOf x
  | .mulAssign x | .mul x => v * numberOf x

/-- Not a multiplication by a number with a fractional part. -/
def WholeScale : Special.AngleOp → Prop
  | .mulAssign x | .mul x => ∃ k : ℤ, x = .num k
  | _ => True

end Ecl.Spec
