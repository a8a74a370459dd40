import Verif.Lemmas.InterpolationFloat
import Verif.Lemmas.DriveFloat
import Verif.Lemmas.Double
import Mathlib.Algebra.Polynomial.BigOperators
import Mathlib.Tactic.NormNum

/-! # C124: interpolating polynomials in floating point arithmetic -/
set_option autoImplicit false
set_option linter.unusedSimpArgs false

namespace Ecl.Props.C124
open Ecl Ecl.PolyFloat Ecl.Spec
open Ecl.Poly (Coeffs ofList)

theorem natDegree_toPoly (n : ℕ) (c : Coeffs ℝ) : (toPoly n c).natDegree ≤ n := by
  unfold toPoly
  refine Polynomial.natDegree_sum_le_of_forall_le _ _ fun i hi => ?_
  exact (Polynomial.natDegree_C_mul_X_pow_le _ _).trans (Nat.lt_succ_iff.1 (Finset.mem_range.1 hi))

/-- From the counted roundings to a bound. -/
theorem bound {k : ℕ} {N a' a A B r : ℝ} (h : Close 53 k a' a A) (hk : (1 + 1 / 2 ^ 53 : ℝ) ^ k - 1 ≤ N / 2 ^ 53)
    (hN : 0 ≤ N) (hA : A ≤ r * B) : |a' - a| ≤ N / 2 ^ 53 * (r * B) :=
  h.1.trans (mul_le_mul hk hA h.nonneg (by positivity))

/-- The bounds for a shifted polynomial from those for the local one. -/
theorem bounds {n k : ℕ} {C : Coeffs ℝ} {N t r D v' v w' w z' z B0 B1 B2 : ℝ}
    (hC : ∀ i ≤ n, 0 ≤ C i) (ht : 0 ≤ t) (hr : 1 ≤ r) (hD : 0 ≤ D) (h : t ≤ r * D)
    (hk : (1 + 1 / 2 ^ 53 : ℝ) ^ k - 1 ≤ N / 2 ^ 53) (hN : 0 ≤ N)
    (h0 : Close 53 k v' v ((toPoly n C).eval t)) (h1 : Close 53 k w' w ((toPoly n C).derivative.eval t))
    (h2 : Close 53 k z' z ((toPoly n C).derivative.derivative.eval t))
    (e0 : Poly.eval n C D = B0) (e1 : Poly.derivativeAt n C D = B1) (e2 : Poly.dderivativeAt n C D = B2) :
    |v' - v| ≤ N / 2 ^ 53 * (r ^ n * B0) ∧ |w' - w| ≤ N / 2 ^ 53 * (r ^ (n - 1) * B1) ∧
    |z' - z| ≤ N / 2 ^ 53 * (r ^ (n - 2) * B2) := by
  have hC1 : ∀ i, 0 ≤ Poly.derivative n C i := by
    intro i
    unfold Poly.derivative
    split
    · exact mul_nonneg (by positivity) (hC _ (by omega))
    · exact le_rfl
  have hC2 : ∀ i, 0 ≤ Poly.derivative (n - 1) (Poly.derivative n C) i := by
    intro i
    unfold Poly.derivative
    split
    · refine mul_nonneg (by positivity) ?_
      split
      · exact mul_nonneg (by positivity) (hC _ (by omega))
      · exact le_rfl
    · exact le_rfl
  refine ⟨bound h0 hk hN ?_, bound h1 hk hN ?_, bound h2 hk hN ?_⟩
  · rw [Poly.eval_toPoly, ← e0]
    exact grow n C hC ht hr hD h
  · rw [← Poly.derivativeAt_eq, ← e1]
    unfold Poly.derivativeAt
    split
    · exact grow _ _ (fun i _ => hC1 i) ht hr hD h
    · simp
  · rw [← Poly.dderivativeAt_eq, ← e2]
    unfold Poly.dderivativeAt
    split
    · exact grow _ _ (fun i _ => hC2 i) ht hr hD h
    · simp

/-- Everything about a shifted local polynomial, in terms of the local one. -/
theorem whole {fl : ℝ → ℝ} (hfl : Rounds 53 fl) {n k : ℕ} (hn : n ≤ 33) {c' c C : Coeffs ℝ} (N xi xf : ℝ)
    (loc : ∀ m ≤ n, Close 53 k (c' m) (c m) (C m))
    (hk : (1 + 1 / 2 ^ 53 : ℝ) ^ (3 * n + 2 + k) - 1 ≤ N / 2 ^ 53) (hN : 0 ≤ N) :
    ∃ d, shiftUnlessZero fl n c' xi = .ok d ∧ ∃ P : Polynomial ℝ, P.natDegree ≤ n ∧
      (P.eval xi = Poly.eval n c 0 ∧ P.derivative.eval xi = Poly.derivativeAt n c 0 ∧
        P.derivative.derivative.eval xi = Poly.dderivativeAt n c 0) ∧
      (P.eval xf = Poly.eval n c (xf - xi) ∧ P.derivative.eval xf = Poly.derivativeAt n c (xf - xi) ∧
        P.derivative.derivative.eval xf = Poly.dderivativeAt n c (xf - xi)) ∧
      ∀ x r, 1 ≤ r → |x| + |xi| ≤ r * |xf - xi| →
        |PolyFloat.eval fl n d x - P.eval x| ≤ N / 2 ^ 53 * (r ^ n * Poly.eval n C |xf - xi|) ∧
        |PolyFloat.derivativeAt fl n d x - P.derivative.eval x| ≤
          N / 2 ^ 53 * (r ^ (n - 1) * Poly.derivativeAt n C |xf - xi|) ∧
        |PolyFloat.dderivativeAt fl n d x - P.derivative.derivative.eval x| ≤
          N / 2 ^ 53 * (r ^ (n - 2) * Poly.dderivativeAt n C |xf - xi|) := by
  obtain ⟨d, h1, h2⟩ := blueprint_close hfl (by norm_num) hn xi loc
  have e := fun x => shifted_eval n xi c x
  have g : ∀ x, (toPoly n c).eval x = Poly.eval n c x ∧ (toPoly n c).derivative.eval x = Poly.derivativeAt n c x ∧
      (toPoly n c).derivative.derivative.eval x = Poly.dderivativeAt n c x := fun x =>
    ⟨Poly.eval_toPoly _ _ _, (Poly.derivativeAt_eq _ _ _).symm, (Poly.dderivativeAt_eq _ _ _).symm⟩
  refine ⟨d, h1, (toPoly n c).comp (Polynomial.X - Polynomial.C xi), ?_, ?_, ?_, ?_⟩
  · refine Polynomial.natDegree_comp_le.trans ?_
    rw [Polynomial.natDegree_X_sub_C, mul_one]
    exact natDegree_toPoly n c
  · simp [Polynomial.derivative_comp, g]
  · simp [Polynomial.derivative_comp, g]
  · intro x r hr hx
    obtain ⟨a0, a1, a2⟩ := h2 x
    have := bounds (fun i hi => (loc i hi).nonneg) (by positivity) hr (abs_nonneg _) hx hk hN a0 a1 a2 rfl rfl rfl
    simpa [Polynomial.derivative_comp] using this

end Ecl.Props.C124

namespace Ecl.Props
open Ecl Ecl.PolyFloat Ecl.Spec C124
open Ecl.Poly (Coeffs ofList)
open Polynomial (derivative_comp)

/-- **C124.** Shifting a polynomial by `s` and evaluating it or its derivatives at `x`: the error is at most
`(1 + 2^-53)^(3n+2) - 1` times what comes out for the absolute values of the coefficients at `|x| + |s|`. -/
theorem C124_shift {fl : ℝ → ℝ} (hfl : Rounds 53 fl) {n : ℕ} (hn : n ≤ 33) (c : ℕ → ℝ) (s : ℝ) :
    ∃ d, PolyFloat.shiftHorizontal fl n c s = .ok d ∧ ∀ x,
      |PolyFloat.eval fl n d x - (toPoly n c).eval (x - s)| ≤
        ((1 + 1 / 2 ^ 53) ^ (3 * n + 2) - 1) * (toPoly n fun i => |c i|).eval (|x| + |s|) ∧
      |PolyFloat.derivativeAt fl n d x - (toPoly n c).derivative.eval (x - s)| ≤
        ((1 + 1 / 2 ^ 53) ^ (3 * n + 2) - 1) * (toPoly n fun i => |c i|).derivative.eval (|x| + |s|) ∧
      |PolyFloat.dderivativeAt fl n d x - (toPoly n c).derivative.derivative.eval (x - s)| ≤
        ((1 + 1 / 2 ^ 53) ^ (3 * n + 2) - 1) * (toPoly n fun i => |c i|).derivative.derivative.eval (|x| + |s|) := by
  have hp : 1 ≤ 53 := by norm_num
  obtain ⟨d, h1, h2⟩ := shiftHorizontal_close hfl hp hn s (c' := c) (c := c) (C := fun i => |c i|) (k := 0)
    (fun m _ => Close.exact _)
  refine ⟨d, h1, fun x => ?_⟩
  obtain ⟨e1, e2, e3⟩ := shifted_eval n s c x
  obtain ⟨f1, f2, f3⟩ := shifted_eval n (-|s|) (fun i => |c i|) |x|
  rw [sub_neg_eq_add] at f1 f2 f3
  rw [← e1, ← e2, ← e3, ← f1, ← f2, ← f3]
  exact ⟨((eval_close hfl hp x h2).more _ (by omega)).1, ((derivativeAt_close hfl hp x h2).more _ (by omega)).1,
    ((dderivativeAt_close hfl hp x h2).more _ (by omega)).1⟩

/-- **C124.** The line through two points: the error is at most 9 units `2^-53` of `|yi| + |yf - yi| (|x| + |xi|) / |xf - xi|`. -/
theorem C124_linear_partial {fl : ℝ → ℝ} (hfl : Rounds 53 fl) (xi yi xf yf : ℝ) (h : xi ≠ xf) (x : ℝ) :
    |PolyFloat.eval fl 1 (PolyFloat.linearInterpolation fl xi yi xf yf) x
      - (yi + (yf - yi) / (xf - xi) * (x - xi))| ≤
      9 / 2 ^ 53 * (|yi| + |yf - yi| / |xf - xi| * (|x| + |xi|)) := by
  have hp : 1 ≤ 53 := by norm_num
  have hD : xf - xi ≠ 0 := sub_ne_zero.2 h.symm
  have hdx : Close 53 1 (fl (xf - xi)) (xf - xi) |xf - xi| := (Close.exact _).round hfl hp
  have hdy : Close 53 1 (fl (yf - yi)) (yf - yi) |yf - yi| := (Close.exact _).round hfl hp
  have h1 := (hdy.div hdx hD (small 1 (by omega))).round hfl hp
  have h0 := (((Close.exact (p := 53) yi).more 6 (by omega)).sub
    (((h1.mul (Close.exact (p := 53) xi)).round hfl hp).more 6 (by omega))).round hfl hp
  have hx := (h1.mul (Close.exact (p := 53) x)).round hfl hp
  have hv := (h0.add (hx.more 7 (by omega))).round hfl hp
  have e : PolyFloat.eval fl 1 (PolyFloat.linearInterpolation fl xi yi xf yf) x =
      fl (fl (yi - fl (fl (fl (yf - yi) / fl (xf - xi)) * xi)) + fl (fl (fl (yf - yi) / fl (xf - xi)) * x)) := by
    simp [PolyFloat.eval, PolyFloat.evalLoop, PolyFloat.linearInterpolation, ofList]
  rw [e]
  have e2 : yi + (yf - yi) / (xf - xi) * (x - xi) =
      yi - (yf - yi) / (xf - xi) * xi + (yf - yi) / (xf - xi) * x := by ring
  rw [e2]
  have := bound (N := 9) (r := 1) (B := |yi| + |yf - yi| / |xf - xi| * (|x| + |xi|)) hv (by norm_num) (by norm_num)
    (le_of_eq (by ring))
  rwa [one_mul] at this

/-- **C124.** The line through a point with a slope. -/
theorem C124_point_slope_partial {fl : ℝ → ℝ} (hfl : Rounds 53 fl) (xf yf slope x : ℝ) :
    |PolyFloat.eval fl 1 (PolyFloat.pointSlopeForm fl xf yf slope) x - (yf + slope * (x - xf))| ≤
      4 / 2 ^ 53 * (|yf| + |slope| * (|x| + |xf|)) := by
  have hp : 1 ≤ 53 := by norm_num
  have X := fun a : ℝ => Close.exact (p := 53) a
  have h0 := (((X yf).more 1 (by omega)).sub (((X slope).mul (X xf)).round hfl hp)).round hfl hp
  have hv := (h0.add ((((X slope).mul (X x)).round hfl hp).more 2 (by omega))).round hfl hp
  have e : PolyFloat.eval fl 1 (PolyFloat.pointSlopeForm fl xf yf slope) x =
      fl (fl (yf - fl (slope * xf)) + fl (slope * x)) := by
    simp [PolyFloat.eval, PolyFloat.evalLoop, PolyFloat.pointSlopeForm, ofList]
  rw [e, show yf + slope * (x - xf) = yf - slope * xf + slope * x by ring]
  have := bound (N := 4) (r := 1) (B := |yf| + |slope| * (|x| + |xf|)) hv (by norm_num) (by norm_num)
    (le_of_eq (by ring))
  rwa [one_mul] at this

/-- **C124.** Cubics with given values and slopes at both ends: as far as `|x| + |xi|` is at most `r` times the
length of the interval, value and slope are those of the true cubic up to 26 units `2^-53` of the data, times `r^3` and
`r^2`. -/
theorem C124_cubic_slopes_partial {fl : ℝ → ℝ} (hfl : Rounds 53 fl) (xi yi vi xf yf vf : ℝ) (h : xi ≠ xf) :
    ∃ c, PolyFloat.cubicDerivativeInterpolation fl xi yi vi xf yf vf = .ok c ∧
    ∃ P : Polynomial ℝ, P.natDegree ≤ 3 ∧ P.eval xi = yi ∧ P.derivative.eval xi = vi ∧
      P.eval xf = yf ∧ P.derivative.eval xf = vf ∧
      ∀ x r, 1 ≤ r → |x| + |xi| ≤ r * |xf - xi| →
        |PolyFloat.eval fl 3 c x - P.eval x| ≤
          26 / 2 ^ 53 * (r ^ 3 * (|yi| + 5 * |yf - yi| + (4 * |vi| + 2 * |vf|) * |xf - xi|)) ∧
        |PolyFloat.derivativeAt fl 3 c x - P.derivative.eval x| ≤
          26 / 2 ^ 53 * (r ^ 2 * (12 * |yf - yi| / |xf - xi| + 8 * |vi| + 5 * |vf|)) := by
  have hp : 1 ≤ 53 := by norm_num
  have hD : xf - xi ≠ 0 := sub_ne_zero.2 h.symm
  have hdx : Close 53 1 (fl (xf - xi)) (xf - xi) |xf - xi| := (Close.exact _).round hfl hp
  obtain ⟨c, h1, P, hP, ⟨i0, i1, -⟩, ⟨f0, f1, -⟩, h2⟩ := whole hfl (by norm_num) 26 xi xf
    (cubicDerivative_local hfl yi vi yf vf (xf - xi) hD hdx) (by norm_num) (by norm_num)
  refine ⟨c, h1, P, hP, i0.trans ?_, i1.trans ?_, f0.trans ?_, f1.trans ?_, fun x r hr hx => ?_⟩
  · simp [Poly.eval, Poly.evalLoop, ofList]
  · simp [Poly.derivativeAt, Poly.derivative, Poly.eval, Poly.evalLoop, ofList]
  · simp [Poly.eval, Poly.evalLoop, ofList]; field_simp; ring
  · simp [Poly.derivativeAt, Poly.derivative, Poly.eval, Poly.evalLoop, ofList]; field_simp; ring
  · obtain ⟨b0, b1, -⟩ := h2 x r hr hx
    have hpos : 0 < |xf - xi| := abs_pos.2 hD
    generalize hE : |xf - xi| = E at *
    constructor
    · refine b0.trans (le_of_eq ?_)
      congr 2
      simp [Poly.eval, Poly.evalLoop, ofList, abs_mul, hE]; field_simp; ring
    · refine b1.trans (le_of_eq ?_)
      congr 2
      simp [Poly.derivativeAt, Poly.derivative, Poly.eval, Poly.evalLoop, ofList, abs_mul, hE]; field_simp; ring

/-- **C124.** Cubics with given values and second derivatives at both ends. -/
theorem C124_cubic_curvatures_partial {fl : ℝ → ℝ} (hfl : Rounds 53 fl) (xi yi wi xf yf wf : ℝ) (h : xi ≠ xf) :
    ∃ c, PolyFloat.cubicSecondDerivativeInterpolation fl xi yi wi xf yf wf = .ok c ∧
    ∃ P : Polynomial ℝ, P.natDegree ≤ 3 ∧ P.eval xi = yi ∧ P.derivative.derivative.eval xi = wi ∧
      P.eval xf = yf ∧ P.derivative.derivative.eval xf = wf ∧
      ∀ x r, 1 ≤ r → |x| + |xi| ≤ r * |xf - xi| →
        |PolyFloat.eval fl 3 c x - P.eval x| ≤
          28 / 2 ^ 53 * (r ^ 3 * (2 * |yi| + |yf| + (4 / 3 * |wi| + 1 / 3 * |wf|) * |xf - xi| ^ 2)) ∧
        |PolyFloat.derivativeAt fl 3 c x - P.derivative.eval x| ≤
          28 / 2 ^ 53 * (r ^ 2 * ((|yf| + |yi|) / |xf - xi| + (13 / 6 * |wi| + 2 / 3 * |wf|) * |xf - xi|)) ∧
        |PolyFloat.dderivativeAt fl 3 c x - P.derivative.derivative.eval x| ≤
          28 / 2 ^ 53 * (r * (2 * |wi| + |wf|)) := by
  have hp : 1 ≤ 53 := by norm_num
  have hD : xf - xi ≠ 0 := sub_ne_zero.2 h.symm
  have hdx : Close 53 1 (fl (xf - xi)) (xf - xi) |xf - xi| := (Close.exact _).round hfl hp
  obtain ⟨c, h1, P, hP, ⟨i0, -, i2⟩, ⟨f0, -, f2⟩, h2⟩ := whole hfl (by norm_num) 28 xi xf
    (cubicSecond_local hfl yi wi yf wf (xf - xi) hD hdx) (by norm_num) (by norm_num)
  refine ⟨c, h1, P, hP, i0.trans ?_, i2.trans ?_, f0.trans ?_, f2.trans ?_, fun x r hr hx => ?_⟩
  · simp [Poly.eval, Poly.evalLoop, ofList]
  · simp [Poly.dderivativeAt, Poly.derivative, Poly.eval, Poly.evalLoop, ofList]; ring
  · simp [Poly.eval, Poly.evalLoop, ofList]; field_simp; ring
  · simp [Poly.dderivativeAt, Poly.derivative, Poly.eval, Poly.evalLoop, ofList]; field_simp; ring
  · obtain ⟨b0, b1, b2⟩ := h2 x r hr hx
    have hpos : 0 < |xf - xi| := abs_pos.2 hD
    generalize hE : |xf - xi| = E at *
    refine ⟨b0.trans (le_of_eq ?_), b1.trans (le_of_eq ?_), b2.trans (le_of_eq ?_)⟩
    · congr 2
      simp [Poly.eval, Poly.evalLoop, ofList, abs_mul, hE]; field_simp; ring
    · congr 2
      simp [Poly.derivativeAt, Poly.derivative, Poly.eval, Poly.evalLoop, ofList, abs_mul, hE]; field_simp; ring
    · congr 1
      simp [Poly.dderivativeAt, Poly.derivative, Poly.eval, Poly.evalLoop, ofList, abs_mul, hE]; field_simp; left; ring

/-- **C124.** Quintics with given values, slopes and second derivatives at both ends. -/
theorem C124_quintic_partial {fl : ℝ → ℝ} (hfl : Rounds 53 fl) (xi yi vi wi xf yf vf wf : ℝ) (h : xi ≠ xf) :
    ∃ c, PolyFloat.quinticInterpolation fl xi yi vi wi xf yf vf wf = .ok c ∧
    ∃ P : Polynomial ℝ, P.natDegree ≤ 5 ∧
      P.eval xi = yi ∧ P.derivative.eval xi = vi ∧ P.derivative.derivative.eval xi = wi ∧
      P.eval xf = yf ∧ P.derivative.eval xf = vf ∧ P.derivative.derivative.eval xf = wf ∧
      ∀ x r, 1 ≤ r → |x| + |xi| ≤ r * |xf - xi| →
        |PolyFloat.eval fl 5 c x - P.eval x| ≤
          46 / 2 ^ 53 * (r ^ 5 * (|yi| + 31 * |yf - yi| + (18 * |vi| + 14 * |vf|) * |xf - xi|
            + (4 * |wi| + 2 * |wf|) * |xf - xi| ^ 2)) ∧
        |PolyFloat.derivativeAt fl 5 c x - P.derivative.eval x| ≤
          46 / 2 ^ 53 * (r ^ 4 * (120 * |yf - yi| / |xf - xi| + 66 * |vi| + 55 * |vf|
            + (14 * |wi| + 8 * |wf|) * |xf - xi|)) ∧
        |PolyFloat.dderivativeAt fl 5 c x - P.derivative.derivative.eval x| ≤
          46 / 2 ^ 53 * (r ^ 3 * (360 * |yf - yi| / |xf - xi| ^ 2 + (192 * |vi| + 168 * |vf|) / |xf - xi|
            + 38 * |wi| + 25 * |wf|)) := by
  have hp : 1 ≤ 53 := by norm_num
  have hD : xf - xi ≠ 0 := sub_ne_zero.2 h.symm
  have hdx : Close 53 1 (fl (xf - xi)) (xf - xi) |xf - xi| := (Close.exact _).round hfl hp
  obtain ⟨c, h1, P, hP, ⟨i0, i1, i2⟩, ⟨f0, f1, f2⟩, h2⟩ := whole hfl (by norm_num) 46 xi xf
    (quintic_local hfl yi vi wi yf vf wf (xf - xi) hD hdx) (by norm_num) (by norm_num)
  refine ⟨c, h1, P, hP, i0.trans ?_, i1.trans ?_, i2.trans ?_, f0.trans ?_, f1.trans ?_, f2.trans ?_,
    fun x r hr hx => ?_⟩
  · simp [Poly.eval, Poly.evalLoop, ofList]
  · simp [Poly.derivativeAt, Poly.derivative, Poly.eval, Poly.evalLoop, ofList]
  · simp [Poly.dderivativeAt, Poly.derivative, Poly.eval, Poly.evalLoop, ofList]; ring
  · simp [Poly.eval, Poly.evalLoop, ofList]; field_simp; ring
  · simp [Poly.derivativeAt, Poly.derivative, Poly.eval, Poly.evalLoop, ofList]; field_simp; ring
  · simp [Poly.dderivativeAt, Poly.derivative, Poly.eval, Poly.evalLoop, ofList]; field_simp; ring
  · obtain ⟨b0, b1, b2⟩ := h2 x r hr hx
    have hpos : 0 < |xf - xi| := abs_pos.2 hD
    have hs : |yi - yf| = |yf - yi| := abs_sub_comm _ _
    generalize hE : |xf - xi| = E at *
    refine ⟨b0.trans (le_of_eq ?_), b1.trans (le_of_eq ?_), b2.trans (le_of_eq ?_)⟩
    · congr 2
      simp [Poly.eval, Poly.evalLoop, ofList, abs_mul, hE, hs]; field_simp; ring
    · congr 2
      simp [Poly.derivativeAt, Poly.derivative, Poly.eval, Poly.evalLoop, ofList, abs_mul, hE, hs]; field_simp; ring
    · congr 2
      simp [Poly.dderivativeAt, Poly.derivative, Poly.eval, Poly.evalLoop, ofList, abs_mul, hE, hs]; field_simp; ring

/-- **C124.** On an interval starting at 0, the value and the derivatives asked for at the start are met exactly. -/
theorem C124_start {fl : ℝ → ℝ} (hfl : Rounds 53 fl) (yi vi wi xf yf vf wf : ℝ)
    (hy : IsFloat 53 yi) (hv : IsFloat 53 vi) (hw : IsFloat 53 wi) :
    (∃ c, PolyFloat.cubicDerivativeInterpolation fl 0 yi vi xf yf vf = .ok c ∧
      PolyFloat.eval fl 3 c 0 = yi ∧ PolyFloat.derivativeAt fl 3 c 0 = vi) ∧
    (∃ c, PolyFloat.cubicSecondDerivativeInterpolation fl 0 yi wi xf yf wf = .ok c ∧
      PolyFloat.eval fl 3 c 0 = yi ∧ PolyFloat.dderivativeAt fl 3 c 0 = wi) ∧
    (∃ c, PolyFloat.quinticInterpolation fl 0 yi vi wi xf yf vf wf = .ok c ∧
      PolyFloat.eval fl 5 c 0 = yi ∧ PolyFloat.derivativeAt fl 5 c 0 = vi ∧ PolyFloat.dderivativeAt fl 5 c 0 = wi) := by
  have z : fl 0 = 0 := hfl.self (isFloat_zero 53)
  have ey := hfl.self hy
  have ev := hfl.self hv
  have ew := hfl.self hw
  have eh : fl (wi / 2) = wi / 2 := hfl.self (DriveFloat.isFloat_half hw)
  have e2 : 2 * (wi / 2) = wi := by ring
  refine ⟨⟨_, if_neg (by simp), ?_, ?_⟩, ⟨_, if_neg (by simp), ?_, ?_⟩, ⟨_, if_neg (by simp), ?_, ?_, ?_⟩⟩ <;>
  simp [PolyFloat.eval, PolyFloat.derivativeAt, PolyFloat.dderivativeAt, PolyFloat.derivative, PolyFloat.evalLoop,
    ofList, z, ey, ev, ew, eh, e2]

/-- **C124 fails.** A cubic step from 0 to 1 with slopes 0, on the interval from `2^30` to `2^30 + 1`: its value at the
right end comes out as 0, whichever way ties are rounded. -/
theorem C124_fails_far {fl : ℝ → ℝ} (hfl : Rounds 53 fl) :
    ∃ c, PolyFloat.cubicDerivativeInterpolation fl (2 ^ 30) 0 0 (2 ^ 30 + 1) 1 0 = .ok c ∧
      PolyFloat.eval fl 3 c (2 ^ 30 + 1) = 0 := by
  have exact' : ∀ (k : ℤ) (e : ℕ), |k| ≤ 2 ^ 53 → fl ((k : ℝ) * 2 ^ e) = (k : ℝ) * 2 ^ e := fun k e h => by
    have := isFloat_grid (p := 53) (by norm_num) (k := k) (E := (e : ℤ)) h
    rw [zpow_natCast] at this
    exact hfl.self this
  have z0 : fl 0 = 0 := hfl.self (isFloat_zero 53)
  have e0 : fl 1 = 1 := by
    have := exact' 1 0 (by norm_num)
    norm_num at this
    exact this
  have e1 : fl 3 = 3 := by
    have := exact' 3 0 (by norm_num)
    norm_num at this
    exact this
  have e2 : fl 2 = 2 := by
    have := exact' 1 1 (by norm_num)
    norm_num at this
    exact this
  have e3 : fl (-2) = -2 := by
    have := exact' (-1) 1 (by norm_num)
    norm_num at this
    exact this
  have e4 : fl (-1073741824) = -1073741824 := by
    have := exact' (-1) 30 (by norm_num)
    norm_num at this
    exact this
  have e5 : fl 1152921504606846976 = 1152921504606846976 := by
    have := exact' 1 60 (by norm_num)
    norm_num at this
    exact this
  have e6 : fl 3458764513820540928 = 3458764513820540928 := by
    have := exact' 3 60 (by norm_num)
    norm_num at this
    exact this
  have e7 : fl (-1237940039285380274899124224) = -1237940039285380274899124224 := by
    have := exact' (-1) 90 (by norm_num)
    norm_num at this
    exact this
  have e8 : fl 2475880078570760549798248448 = 2475880078570760549798248448 := by
    have := exact' 1 91 (by norm_num)
    norm_num at this
    exact this
  have e9 : fl 2475880082029525063618789376 = 2475880082029525063618789376 := by
    have := exact' 2147483651 60 (by norm_num)
    norm_num at this
    exact this
  have e10 : fl (-2147483648) = -2147483648 := by
    have := exact' (-1) 31 (by norm_num)
    norm_num at this
    exact this
  have e11 : fl (-6442450944) = -6442450944 := by
    have := exact' (-3) 31 (by norm_num)
    norm_num at this
    exact this
  have e12 : fl (-6917529027641081856) = -6917529027641081856 := by
    have := exact' (-3) 61 (by norm_num)
    norm_num at this
    exact this
  have e13 : fl (-6917529034083532800) = -6917529034083532800 := by
    have := exact' (-3221225475) 31 (by norm_num)
    norm_num at this
    exact this
  have e14 : fl (-3221225472) = -3221225472 := by
    have := exact' (-3) 30 (by norm_num)
    norm_num at this
    exact this
  have e15 : fl 6442450944 = 6442450944 := by
    have := exact' 3 31 (by norm_num)
    norm_num at this
    exact this
  have e16 : fl 6442450947 = 6442450947 := by
    have := exact' 6442450947 0 (by norm_num)
    norm_num at this
    exact this
  have e17 : fl (-4951760167517814641058119680) = -4951760167517814641058119680 := by
    have := exact' (-4294967305) 60 (by norm_num)
    norm_num at this
    exact this
  have e18 : fl 2475880085488289577439330304 = 2475880085488289577439330304 := by
    have := exact' 1073741827 61 (by norm_num)
    norm_num at this
    exact this
  have e19 : fl (-2475880085488289577439330304) = -2475880085488289577439330304 := by
    have := exact' (-1073741827) 61 (by norm_num)
    norm_num at this
    exact this
  have r0 : fl (-7427640249547339711119360000) = -7427640249547339704676909056 := by
    have := round_to hfl.flip (by norm_num) (x := 7427640249547339711119360000) 6755399453638656 40 (by norm_num) (by norm_num) (by norm_num [abs_lt])
    norm_num at this
    linarith
  have r1 : fl 1152921506754330625 = 1152921506754330624 := by
    rw [round_to hfl (by norm_num) 4503599635759104 8 (by norm_num) (by norm_num) (by norm_num [abs_lt])]
    norm_num
  have r2 : fl 7427640253006104224939900928 = 7427640253006104218497449984 := by
    rw [round_to hfl (by norm_num) 6755399456784384 40 (by norm_num) (by norm_num) (by norm_num [abs_lt])]
    norm_num
  have r3 : fl 1237940042744144790867148800 = 1237940042744144788719665152 := by
    rw [round_to hfl (by norm_num) 4503599639953408 38 (by norm_num) (by norm_num) (by norm_num [abs_lt])]
    norm_num
  refine ⟨ofList [2475880082029525063618789376, -6917529034083532800, 6442450947, -2], ?_, ?_⟩
  · unfold cubicDerivativeInterpolation shiftUnlessZero
    rw [if_pos (by norm_num)]
    unfold shiftHorizontal
    rw [if_neg (by norm_num)]
    have hrow : ∀ i, Pascal.row 3 i Pascal.table3 = Pascal.row 3 i [1, 1, 1, 1, 1, 2, 3, 1, 3, 1] := fun i => rfl
    simp only [Pascal.coefficients, if_true, Outcome.bind, shiftOuter, hrow]
    norm_num [Pascal.row, Pascal.beginOffset, Pascal.endOffset, shiftInner, ofList, Function.update_apply, z0, e0, e1, e2, e3, e4, e5, e6, e7, e8, e9, e10, e11, e12, e13, e14, e15, e16, e17, e18, e19, r0, r1, r2, r3]
    funext i
    rcases i with _ | _ | _ | _ | i <;> norm_num [Function.update_apply] <;> rfl
  · norm_num [PolyFloat.eval, PolyFloat.evalLoop, ofList, z0, e0, e1, e2, e3, e4, e5, e6, e7, e8, e9, e10, e11, e12, e13, e14, e15, e16, e17, e18, e19, r0, r1, r2, r3]

/-- Rounding to nearest, ties to even, is such a rounding. -/
example : Rounds 53 round53 := round53_nearest

/-- A cubic with data of size 1 on the unit interval: its error is below `2^-48`. -/
example : ∃ c, PolyFloat.cubicDerivativeInterpolation round53 0 0 0 1 1 0 = .ok c ∧
    ∃ P : Polynomial ℝ, P.natDegree ≤ 3 ∧ P.eval 0 = 0 ∧ P.eval 1 = 1 ∧
      ∀ x, 0 ≤ x → x ≤ 1 → |PolyFloat.eval round53 3 c x - P.eval x| ≤ 130 / 2 ^ 53 := by
  obtain ⟨c, h1, P, h2, h3, -, h4, -, h5⟩ := C124_cubic_slopes_partial round53_nearest 0 0 0 1 1 0 (by norm_num)
  refine ⟨c, h1, P, h2, h3, h4, fun x hx hx1 => ?_⟩
  have := (h5 x 1 le_rfl (by rw [abs_of_nonneg hx]; simpa using hx1)).1
  norm_num at this ⊢
  exact this

end Ecl.Props
