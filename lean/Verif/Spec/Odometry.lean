import Mathlib.Analysis.SpecialFunctions.Trigonometric.Basic
import Mathlib.Data.Real.Sqrt
import Mathlib.Analysis.SpecialFunctions.Complex.Arg

/-! # Where one is after many small motions -/
set_option autoImplicit false

namespace Ecl.Spec.Odometry
open Real

/-- A place in the plane with a heading, or a motion: forwards by `x`, sideways by `y`, turning by `h`. -/
structure Place where
  x : ℝ
  y : ℝ
  h : ℝ

/-- Make the motion `m`, seen from the place `p`. -/
noncomputable def go (p m : Place) : Place :=
  ⟨p.x + (cos p.h * m.x - sin p.h * m.y), p.y + (sin p.h * m.x + cos p.h * m.y), p.h + m.h⟩

/-- Where one is after the motions, starting in the origin. -/
noncomputable def travel (ms : List Place) : Place := ms.foldl go ⟨0, 0, 0⟩

/-- The length of the way. -/
noncomputable def way (ms : List Place) : ℝ := (ms.map fun m => sqrt (m.x ^ 2 + m.y ^ 2)).sum

/-- Library functions for cosine and sine with an error of at most one unit in the last of `p` places. -/
def Trig (p : ℕ) (cosF sinF : ℝ → ℝ) : Prop :=
  ∀ a, |cosF a - cos a| ≤ 1 / 2 ^ p ∧ |sinF a - sin a| ≤ 1 / 2 ^ p

/-- A library function for the direction of a vector, with results between -4 and 4 and an error of at most one
unit in the last of `p` places. -/
def Direction (p : ℕ) (atan2F : ℝ → ℝ → ℝ) : Prop :=
  ∀ y x, |atan2F y x - Complex.arg ⟨x, y⟩| ≤ 4 / 2 ^ p

end Ecl.Spec.Odometry
