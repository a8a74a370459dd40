import Verif.Lemmas.Polynomial
import Mathlib.Tactic.FieldSimp
import Mathlib.Tactic.Ring
import Mathlib.Tactic.LinearCombination

/-! # C52, C53: polynomials and the interpolating blueprints -/
set_option autoImplicit false
set_option linter.unusedSimpArgs false

namespace Ecl.Props
open Ecl Ecl.Poly Ecl.Spec

variable {K : Type} [Field K]

/-- **C52.** `operator()` is the value of the polynomial, `derivative()`, `derivative(x)` and
`dderivative(x)` are its first and second derivatives, for every degree. -/
theorem C52_evaluation (n : ℕ) (c : Coeffs K) (x : K) :
    eval n c x = (toPoly n c).eval x ∧
    toPoly (n - 1) (Poly.derivative n c) = (toPoly n c).derivative ∧
    derivativeAt n c x = (toPoly n c).derivative.eval x ∧
    dderivativeAt n c x = (toPoly n c).derivative.derivative.eval x :=
  ⟨(eval_toPoly n c x).symm, toPoly_derivative n c, derivativeAt_eq n c x, dderivativeAt_eq n c x⟩

/-- `1 + 2x + 3x² + 4x³` at 2. -/
example : eval 3 (ofList [1, 2, 3, 4] : Coeffs ℚ) 2 = 49 ∧
    derivativeAt 3 (ofList [1, 2, 3, 4] : Coeffs ℚ) 2 = 62 ∧
    dderivativeAt 3 (ofList [1, 2, 3, 4] : Coeffs ℚ) 2 = 54 := by
  norm_num [eval, evalLoop, derivativeAt, dderivativeAt, Poly.derivative, ofList]

open Polynomial in
/-- **C52.** `shift_horizontal(s)` turns the polynomial `p(x)` into `p(x - s)`, up to degree 33.

Missing from the full statement: higher degrees, see `C52_fails_large`. -/
theorem C52_shift_partial (n : ℕ) (hn : n ≤ 33) (c : Coeffs K) (s : K) :
    ∃ c', shiftHorizontal n c s = .ok c' ∧ toPoly n c' = (toPoly n c).comp (X - C s) ∧
      ∀ x, eval n c' x = eval n c (x - s) := by
  obtain ⟨c', h, hc⟩ := shiftHorizontal_toPoly hn c s
  refine ⟨c', h, hc, fun x => ?_⟩
  rw [← eval_toPoly, ← eval_toPoly, hc, eval_comp]; simp

/-- **C52.** From degree 34 on `shift_horizontal` is undefined: its Pascal triangle overflows. -/
theorem C52_fails_large (n : ℕ) (hn : 34 ≤ n) (c : Coeffs K) (s : K) :
    shiftHorizontal n c s = .ub := by
  unfold shiftHorizontal Pascal.coefficients
  rw [if_neg (by omega), if_neg (by omega), if_neg (by omega), Pascal.generic_large hn]
  rfl

/-- **C53.** `LinearInterpolation` passes through both points. -/
theorem C53_linear (xi yi xf yf : K) (h : xi ≠ xf) :
    eval 1 (linearInterpolation xi yi xf yf) xi = yi ∧
    eval 1 (linearInterpolation xi yi xf yf) xf = yf := by
  have hd : xf - xi ≠ 0 := sub_ne_zero.2 h.symm
  constructor <;> simp [eval, evalLoop, linearInterpolation, ofList] <;> field_simp <;> ring

/-- **C53.** `PointSlopeForm` passes through the point with the given slope. -/
theorem C53_point_slope (xf yf slope x : K) :
    eval 1 (pointSlopeForm xf yf slope) xf = yf ∧
    derivativeAt 1 (pointSlopeForm xf yf slope) x = slope := by
  constructor <;> simp [eval, evalLoop, derivativeAt, Poly.derivative, pointSlopeForm, ofList]

variable [DecidableEq K] [CharZero K]

/-- **C53.** `CubicDerivativeInterpolation` has the requested values and slopes at both ends. -/
theorem C53_cubic_derivative (xi yi ydi xf yf ydf : K) (h : xi ≠ xf) :
    ∃ c, cubicDerivativeInterpolation xi yi ydi xf yf ydf = .ok c ∧
      eval 3 c xi = yi ∧ derivativeAt 3 c xi = ydi ∧
      eval 3 c xf = yf ∧ derivativeAt 3 c xf = ydf := by
  have hd : xf - xi ≠ 0 := sub_ne_zero.2 h.symm
  unfold cubicDerivativeInterpolation
  obtain ⟨c', hc, h0, h1, -⟩ := shiftUnlessZero_spec (n := 3) (by omega) _ xi
  refine ⟨c', hc, ?_, ?_, ?_, ?_⟩
  · rw [h0]; simp [eval, evalLoop, ofList]
  · rw [h1]; simp [derivativeAt, Poly.derivative, eval, evalLoop, ofList]
  · rw [h0]; simp [eval, evalLoop, ofList]; field_simp; ring
  · rw [h1]; simp [derivativeAt, Poly.derivative, eval, evalLoop, ofList]; field_simp; ring

/-- **C53.** `CubicSecondDerivativeInterpolation` has the requested values and second derivatives at
both ends. -/
theorem C53_cubic_second_derivative (xi yi yddi xf yf yddf : K) (h : xi ≠ xf) :
    ∃ c, cubicSecondDerivativeInterpolation xi yi yddi xf yf yddf = .ok c ∧
      eval 3 c xi = yi ∧ dderivativeAt 3 c xi = yddi ∧
      eval 3 c xf = yf ∧ dderivativeAt 3 c xf = yddf := by
  have hd : xf - xi ≠ 0 := sub_ne_zero.2 h.symm
  unfold cubicSecondDerivativeInterpolation
  obtain ⟨c', hc, h0, -, h2⟩ := shiftUnlessZero_spec (n := 3) (by omega) _ xi
  refine ⟨c', hc, ?_, ?_, ?_, ?_⟩
  · rw [h0]; simp [eval, evalLoop, ofList]
  · rw [h2]; simp [dderivativeAt, Poly.derivative, eval, evalLoop, ofList]; field_simp
  · rw [h0]; simp [eval, evalLoop, ofList]; field_simp; ring
  · rw [h2]; simp [dderivativeAt, Poly.derivative, eval, evalLoop, ofList]; field_simp; ring

/-- **C53.** `QuinticInterpolation` has the requested values, first and second derivatives at both
ends. -/
theorem C53_quintic (xi yi ydi yddi xf yf ydf yddf : K) (h : xi ≠ xf) :
    ∃ c, quinticInterpolation xi yi ydi yddi xf yf ydf yddf = .ok c ∧
      eval 5 c xi = yi ∧ derivativeAt 5 c xi = ydi ∧ dderivativeAt 5 c xi = yddi ∧
      eval 5 c xf = yf ∧ derivativeAt 5 c xf = ydf ∧ dderivativeAt 5 c xf = yddf := by
  have hd : xf - xi ≠ 0 := sub_ne_zero.2 h.symm
  unfold quinticInterpolation
  obtain ⟨c', hc, h0, h1, h2⟩ := shiftUnlessZero_spec (n := 5) (by omega) _ xi
  refine ⟨c', hc, ?_, ?_, ?_, ?_, ?_, ?_⟩
  · rw [h0]; simp [eval, evalLoop, ofList]
  · rw [h1]; simp [derivativeAt, Poly.derivative, eval, evalLoop, ofList]
  · rw [h2]; simp [dderivativeAt, Poly.derivative, eval, evalLoop, ofList]; field_simp
  · rw [h0]; simp [eval, evalLoop, ofList]; field_simp; ring
  · rw [h1]; simp [derivativeAt, Poly.derivative, eval, evalLoop, ofList]; field_simp; ring
  · rw [h2]; simp [dderivativeAt, Poly.derivative, eval, evalLoop, ofList]; field_simp; ring

/-- From (1, 2) to (3, 5), at rest at the start, with slope 1 at the end. -/
example : ∃ c, quinticInterpolation (1 : ℚ) 2 0 0 3 5 1 0 = .ok c ∧ eval 5 c 1 = 2 ∧
    eval 5 c 3 = 5 ∧ derivativeAt 5 c 3 = 1 := by
  obtain ⟨c, h, h0, -, -, h1, h2, -⟩ := C53_quintic (1 : ℚ) 2 0 0 3 5 1 0 (by norm_num)
  exact ⟨c, h, h0, h1, h2⟩

end Ecl.Props
