import Verif.Spec.RealArithmetic
import Verif.Model.NanSpline
import Verif.Model.SmoothLinearSpline
import Verif.Model.TensionSpline
import Verif.Model.LinearTrajectory
import Mathlib.Tactic.Linarith
import Mathlib.Tactic.NormNum

/-! # The programs over an arbitrary arithmetic, run with the real numbers -/
set_option autoImplicit false
set_option linter.unusedSimpArgs false

namespace Ecl.NanReal
open Ecl

open Ecl.CubicSpline (at')

theorem lt_r (x y : ℝ) : (reals.lt x y = true) ↔ x < y := by simp [reals]
theorem le_r (x y : ℝ) : (reals.le x y = true) ↔ x ≤ y := by simp [reals]
theorem eq_r (x y : ℝ) : (reals.eq x y = true) ↔ x = y := by simp [reals]
theorem lit_r (q : ℚ) : reals.lit q = (q : ℝ) := rfl
theorem add_r (x y : ℝ) : reals.add x y = x + y := rfl
theorem sub_r (x y : ℝ) : reals.sub x y = x - y := rfl
theorem mul_r (x y : ℝ) : reals.mul x y = x * y := rfl
theorem div_r (x y : ℝ) : reals.div x y = x / y := rfl
theorem neg_r (x : ℝ) : reals.neg x = -x := rfl
theorem abs_r (x : ℝ) : reals.abs x = |x| := rfl

theorem get_eq (l : List ℝ) : Nan.get reals l = at' l := by
  funext i
  simp [Nan.get, at', reals]

theorem ofList_eq (l : List ℝ) : Nan.ofList reals l = Poly.ofList l := by
  funext i
  simp [Nan.ofList, Poly.ofList, reals]

theorem evalLoop_eq (p : ℕ → ℝ) (x : ℝ) : ∀ (left i : ℕ) (tmp value : ℝ),
    Nan.evalLoop reals p x left i tmp value = Poly.evalLoop p x left i tmp value := by
  intro left
  induction left with
  | zero => intros; rfl
  | succ n ih => intro i tmp value; exact ih _ _ _

theorem eval_eq (n : ℕ) (p : ℕ → ℝ) (x : ℝ) : Nan.eval reals n p x = Poly.eval n p x := evalLoop_eq _ _ _ _ _ _

theorem slope_eq (p : ℕ → ℝ) (x : ℝ) : Nan.lineSlope reals p = Poly.derivativeAt 1 p x := by
  simp [Nan.lineSlope, Nan.derivative, Poly.derivativeAt, Poly.eval, Poly.evalLoop, Poly.derivative, reals]

theorem linear_eq (a b c d : ℝ) : Nan.linearInterpolation reals a b c d = Poly.linearInterpolation a b c d := ofList_eq _
theorem pointSlope_eq (a b c : ℝ) : Nan.pointSlopeForm reals a b c = Poly.pointSlopeForm a b c := ofList_eq _

theorem shift_eq (p : ℕ → ℝ) (s : ℝ) : Poly.shiftHorizontal 5 p s = .ok (Nan.shiftHorizontal reals p s) := by
  have h : Pascal.coefficients 5 = .ok Pascal.table5 := rfl
  unfold Poly.shiftHorizontal
  rw [if_neg (by norm_num), h]
  simp only [Outcome.bind]
  congr 1
  funext i
  rcases i with _ | _ | _ | _ | _ | i <;>
    simp [Poly.shiftOuter, Poly.shiftInner, Nan.shiftHorizontal, Nan.shiftLoop, Pascal.row, Pascal.beginOffset, Pascal.endOffset,
      Pascal.table5, reals, Function.update]

theorem quintic_eq (a b c d e f g h : ℝ) :
    Poly.quinticInterpolation a b c d e f g h = .ok (Nan.quinticInterpolation reals a b c d e f g h) := by
  unfold Poly.quinticInterpolation Nan.quinticInterpolation
  simp only [Poly.shiftUnlessZero, shift_eq, ofList_eq]
  simp only [reals, decide_eq_true_eq]
  push_cast
  split <;> rename_i h0
  · simp [h0]
  · simp only [not_not] at h0
    rw [if_pos h0]

theorem eval3 (p : ℕ → ℝ) (x : ℝ) : Poly.eval 3 p x = p 0 + p 1 * x + p 2 * (x * x) + p 3 * (x * x * x) := rfl

theorem raise_eq : Nan.raise reals = Poly.raise := by
  funext a b
  simp [Nan.raise, Poly.raise, reals]
theorem lower_eq : Nan.lower reals = Poly.lower := by
  funext a b
  simp [Nan.lower, Poly.lower, reals]

theorem consider_eq (better : ℝ → ℝ → ℝ) (p q : ℕ → ℝ) (hpq : ∀ i, i ≤ 3 → p i = q i) (xb xe root best : ℝ) :
    Nan.consider reals better p xb xe root best = Poly.consider better q xb xe root best := by
  unfold Nan.consider Poly.consider
  rw [eval_eq, eval3, eval3, hpq 0 (by omega), hpq 1 (by omega), hpq 2 (by omega), hpq 3 (by omega)]
  simp [reals]

/-- The only difference: for a line the code tests a root that is not a number; here it is 0, whose value is between
those at the ends. -/
theorem cubicExtremum_eq (better : ℝ → ℝ → ℝ) (hb : better = Poly.raise ∨ better = Poly.lower) (p q : ℕ → ℝ)
    (hpq : ∀ i, i ≤ 3 → p i = q i) (xb xe : ℝ) :
    Nan.cubicExtremum reals better xb xe p = Poly.cubicExtremum better xb xe q := by
  unfold Nan.cubicExtremum Poly.cubicExtremum
  have e (x : ℝ) : Nan.eval reals 3 p x = Poly.eval 3 q x := by
    rw [eval_eq, eval3, eval3, hpq 0 (by omega), hpq 1 (by omega), hpq 2 (by omega), hpq 3 (by omega)]
  simp only [consider_eq better p q hpq, e, hpq 1 (by omega), hpq 2 (by omega), hpq 3 (by omega)]
  simp only [reals, decide_eq_true_eq]
  push_cast
  split
  next ha =>
    have h3 : q 3 = 0 := by linarith
    split
    next hb0 =>
      have h2 : q 2 = 0 := by linarith
      unfold Poly.consider
      split
      next hin =>
        rw [hb0, div_zero] at hin
        rw [hb0, div_zero]
        simp only [eval3, h2, h3]
        rcases hb with rfl | rfl
        · unfold Poly.raise
          rcases le_total 0 (q 1) with h1 | h1
          · have a1 := mul_nonneg h1 hin.2.le
            have a2 := mul_nonneg h1 (neg_nonneg.2 hin.1.le)
            rw [if_neg]
            split <;> linarith
          · have a1 := mul_nonneg (neg_nonneg.2 h1) hin.2.le
            have a2 := mul_nonneg (neg_nonneg.2 h1) (neg_nonneg.2 hin.1.le)
            rw [if_neg]
            split <;> linarith
        · unfold Poly.lower
          rcases le_total 0 (q 1) with h1 | h1
          · have a1 := mul_nonneg h1 hin.2.le
            have a2 := mul_nonneg h1 (neg_nonneg.2 hin.1.le)
            rw [if_neg]
            split <;> linarith
          · have a1 := mul_nonneg (neg_nonneg.2 h1) hin.2.le
            have a2 := mul_nonneg (neg_nonneg.2 h1) (neg_nonneg.2 hin.1.le)
            rw [if_neg]
            split <;> linarith
      · rfl
    · rfl
  · rfl

theorem within_eq (amax xl xr : ℝ) (c : ℕ → ℝ) :
    Nan.within reals amax xl xr c = true ↔ SmoothLinear.Within amax xl xr c := by
  have h : ∀ i, i ≤ 3 → Nan.derivative reals (Nan.derivative reals c) i = Poly.derivative 4 (Poly.derivative 5 c) i := by
    intro i hi
    simp only [Nan.derivative, Poly.derivative, reals]
    rw [if_pos (by omega), if_pos (by omega)]
    push_cast
    rfl
  unfold Nan.within SmoothLinear.Within
  simp only [raise_eq, lower_eq, cubicExtremum_eq _ (.inl rfl) _ _ h, cubicExtremum_eq _ (.inr rfl) _ _ h]
  simp [reals, Poly.maximumCubic, Poly.minimumCubic]

/-! ## Smooth linear splines -/
open SmoothLinear

theorem leftEnd_eq (x : ℕ → ℝ) (i j : ℕ) : Nan.leftEnd reals x i j = leftEnd x i j := by
  unfold Nan.leftEnd leftEnd
  simp only [reals]
  split <;> simp
theorem rightEnd_eq (x : ℕ → ℝ) (n i j : ℕ) : Nan.rightEnd reals x n i j = rightEnd x n i j := by
  unfold Nan.rightEnd rightEnd
  simp only [reals]
  split <;> simp
theorem lineAt_eq (x y : ℕ → ℝ) (i : ℕ) : Nan.lineAt reals x y i = lineAt x y i := linear_eq _ _ _ _

theorem attempt_eq (x y : ℕ → ℝ) (n i j : ℕ) : attempt x y n i j = .ok (Nan.attempt reals x y n i j) := by
  unfold attempt Nan.attempt
  simp only [quintic_eq, leftEnd_eq, rightEnd_eq, lineAt_eq, eval_eq]
  rw [slope_eq _ (leftEnd x i j), slope_eq _ (rightEnd x n i j)]
  simp [reals]

/-- A corner as the other model writes it. -/
def triple (c : Corner) : ℝ × ℝ × (ℕ → ℝ) := (c.left, c.right, c.poly)

theorem tries_eq (x y : ℕ → ℝ) (amax : ℝ) (n i : ℕ) : ∀ left j,
    (∃ c, tries x y amax n i left j = .ok c ∧ Nan.tries reals x y amax n i left j = some (triple c)) ∨
    (tries x y amax n i left j = .throw .constructorError ∧ Nan.tries reals x y amax n i left j = none) := by
  intro left
  induction left with
  | zero => intro j; exact .inr ⟨rfl, rfl⟩
  | succ left ih =>
    intro j
    unfold tries Nan.tries
    rw [attempt_eq]
    simp only [Outcome.bind, leftEnd_eq, rightEnd_eq]
    by_cases h : Within amax (leftEnd x i j) (rightEnd x n i j) (Nan.attempt reals x y n i j)
    · rw [if_pos h, if_pos ((within_eq _ _ _ _).2 h)]
      exact .inl ⟨_, rfl, rfl⟩
    · rw [if_neg h, if_neg (fun g => h ((within_eq _ _ _ _).1 g))]
      exact ih _

theorem corner_eq (x y : ℕ → ℝ) (amax : ℝ) (n i : ℕ) :
    (∃ c, corner x y amax n i = .ok c ∧ Nan.corner reals x y amax n i = some (triple c)) ∨
    (corner x y amax n i = .throw .constructorError ∧ Nan.corner reals x y amax n i = none) := by
  unfold corner Nan.corner
  simp only [lineAt_eq, ofList_eq]
  simp only [show reals.eq = fun x y => @decide (x = y) (Classical.propDecidable _) from rfl, decide_eq_true_eq]
  split
  · exact .inl ⟨_, rfl, by simp [triple, reals]⟩
  · exact tries_eq _ _ _ _ _ _ _

theorem cornerLoop_eq (x y : ℕ → ℝ) (amax : ℝ) (n : ℕ) : ∀ left i,
    (∃ cs, cornerLoop x y amax n left i = .ok cs ∧ Nan.cornerLoop reals x y amax n left i = .ok (cs.map triple)) ∨
    (cornerLoop x y amax n left i = .throw .constructorError ∧
      Nan.cornerLoop reals x y amax n left i = .data .constructorError (LinearTrajectory.failedCorner x y amax n left i)) := by
  intro left
  induction left with
  | zero => intro i; exact .inl ⟨[], rfl, rfl⟩
  | succ left ih =>
    intro i
    unfold cornerLoop Nan.cornerLoop LinearTrajectory.failedCorner
    rcases corner_eq x y amax n i with ⟨c, h1, h2⟩ | ⟨h1, h2⟩
    · rw [h1, h2]
      rcases ih (i + 1) with ⟨cs, h3, h4⟩ | ⟨h3, h4⟩
      · exact .inl ⟨c :: cs, by simp [Outcome.bind, h3], by simp [h4]⟩
      · exact .inr ⟨by simp [Outcome.bind, h3], by simp [h4]⟩
    · rw [h1, h2]
      exact .inr ⟨rfl, rfl⟩

theorem smooth_eq (xs ys : List ℝ) (amax : ℝ) :
    Nan.smooth reals xs ys amax =
      match construct xs ys amax with
      | .ok s => .ok (smoothOf s)
      | .throw e => .data e (if xs.length ≠ ys.length then 0 else
          LinearTrajectory.failedCorner (at' xs) (at' ys) amax (xs.length - 1) (xs.length - 2) 1)
      | .ub => .ub := by
  unfold Nan.smooth construct
  simp only [get_eq]
  by_cases h1 : xs.length ≠ ys.length
  · rw [if_pos h1, if_pos h1]
    simp [h1]
  · rw [if_neg h1, if_neg h1, if_neg h1]
    by_cases h2 : xs.length < 2
    · rw [if_pos h2, if_pos h2]
    · rw [if_neg h2, if_neg h2]
      rw [show xs.length - 2 = xs.length - 1 - 1 by omega]
      rcases cornerLoop_eq (at' xs) (at' ys) amax (xs.length - 1) (xs.length - 1 - 1) 1 with ⟨cs, h3, h4⟩ | ⟨h3, h4⟩
      · rw [h3, h4]
        simp only [Outcome.bind, smoothOf]
        congr 2
        · simp [triple, List.flatMap_map]
        · exact List.map_congr_left fun i _ => lineAt_eq _ _ _
        · simp [triple]
      · rw [h3, h4]
        rfl

end Ecl.NanReal
