import Mathlib.Analysis.SpecialFunctions.Trigonometric.Basic
import Mathlib.Data.Matrix.Mul

/-! # Rigid motions -/
set_option autoImplicit false

namespace Ecl.Spec
open Real

/-- Turn by `h` about the origin, then shift by `(x, y)`. -/
noncomputable def move (x y h : ℝ) (q : ℝ × ℝ) : ℝ × ℝ :=
  (x + (cos h * q.1 - sin h * q.2), y + (sin h * q.1 + cos h * q.2))

/-- Apply the matrix, then shift. -/
def moveSpace (r : Matrix (Fin 3) (Fin 3) ℝ) (t : Fin 3 → ℝ) (q : Fin 3 → ℝ) : Fin 3 → ℝ := t + r.mulVec q

/-- The matrix preserves lengths and angles. -/
def Orthogonal (r : Matrix (Fin 3) (Fin 3) ℝ) : Prop := r.transpose * r = 1

end Ecl.Spec
