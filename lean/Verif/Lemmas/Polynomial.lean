import Verif.Model.Polynomial
import Verif.Lemmas.Pascal
import Verif.Spec.Polynomial
import Mathlib.Algebra.BigOperators.Intervals
import Mathlib.Data.Nat.Choose.Sum
import Mathlib.Algebra.BigOperators.NatAntidiagonal

/-! # Evaluation and shifting of polynomials -/
set_option autoImplicit false
set_option linter.unusedSimpArgs false

namespace Ecl.Poly
open Ecl Ecl.Spec Finset

variable {K : Type} [Field K]

theorem evalLoop_eq (c : Coeffs K) (x : K) : ∀ (left i : ℕ) (value : K),
    evalLoop c x left i (x ^ i) value = value + ∑ k ∈ range left, c (i + k) * x ^ (i + k) := by
  intro left
  induction left with
  | zero => intro i value; simp [evalLoop]
  | succ left ih =>
    intro i value
    rw [evalLoop, ← pow_succ, ih, sum_range_succ']
    simp only [add_zero]
    have : ∀ k, i + 1 + k = i + (k + 1) := fun k => by omega
    simp only [this]
    ring

theorem eval_eq_sum (n : ℕ) (c : Coeffs K) (x : K) :
    eval n c x = ∑ i ∈ range (n + 1), c i * x ^ i := by
  have := evalLoop_eq c x n 1 (c 0)
  rw [pow_one] at this
  rw [eval, this, sum_range_succ']
  have : ∀ k, 1 + k = k + 1 := fun k => by omega
  simp only [this, pow_zero, mul_one]
  ring

theorem eval_toPoly (n : ℕ) (c : Coeffs K) (x : K) : (toPoly n c).eval x = eval n c x := by
  rw [eval_eq_sum, toPoly, Polynomial.eval_finset_sum]
  simp

theorem toPoly_derivative (n : ℕ) (c : Coeffs K) :
    toPoly (n - 1) (derivative n c) = (toPoly n c).derivative := by
  unfold toPoly
  rw [Polynomial.derivative_sum, sum_range_succ' (fun i => Polynomial.derivative _) n]
  simp only [Polynomial.derivative_C_mul_X_pow, pow_zero, mul_one, Polynomial.derivative_C, add_zero]
  rcases n with _ | n
  · simp [derivative]
  · rw [Nat.add_sub_cancel]
    apply Finset.sum_congr rfl
    intro i hi
    have hi' : i < n + 1 := mem_range.1 hi
    rw [derivative, if_pos hi', Nat.add_sub_cancel, mul_comm (c (i + 1))]

/-- The inner loop only changes entry `i`, to which it adds the remaining terms. -/
theorem shiftInner_eq (s : K) (i : ℕ) : ∀ (bs : List Int) (j : ℕ) (p : ℕ) (c : Coeffs K), i < j →
    shiftInner s i bs j ((-s) ^ p) c =
      Function.update c i (c i + ∑ k ∈ range bs.length, ((bs.getD k 0 : Int) : K) * (-s) ^ (p + k) * c (j + k)) := by
  intro bs
  induction bs with
  | nil => intro j p c h; simp [shiftInner]
  | cons b bs ih =>
    intro j p c h
    have e : (-s) ^ p * (-1 * s) = (-s) ^ (p + 1) := by rw [pow_succ]; ring
    rw [shiftInner, e, ih (j + 1) (p + 1) _ (by omega), Function.update_idem, Function.update_self,
      List.length_cons, sum_range_succ']
    congr 1
    have hne : ∀ k, Function.update c i (c i + (b : K) * (-s) ^ p * c j) (j + 1 + k) = c (j + 1 + k) :=
      fun k => Function.update_of_ne (by omega) _ _
    simp only [hne]
    have e1 : ∀ k, j + 1 + k = j + (k + 1) := fun k => by omega
    have e2 : ∀ k, p + 1 + k = p + (k + 1) := fun k => by omega
    simp only [e1, e2, List.getD_cons_succ, List.getD_cons_zero, add_zero]
    ring

/-- Value of entry `i` after the shift. -/
def shifted (n : ℕ) (s : K) (c : Coeffs K) (i : ℕ) : K :=
  ∑ k ∈ range (n + 1 - i), (Nat.choose (i + k) k : K) * (-s) ^ k * c (i + k)

theorem row_drop_getD {n i k : ℕ} (hi : i ≤ n) (h : i + k + 1 ≤ n) :
    ((Pascal.row n i (Pascal.rowsUpto n (n + 1))).drop 1).getD k 0 = Pascal.bin i (k + 1) := by
  rw [Pascal.row_rowsUpto hi, List.getD_eq_getElem?_getD, List.getElem?_drop,
    Pascal.getElem_rowPart (by omega)]
  rw [Nat.add_comm 1 k]; rfl

theorem shiftInner_row {n i : ℕ} (hi : i < n) (s : K) (c : Coeffs K) :
    shiftInner s i ((Pascal.row n i (Pascal.rowsUpto n (n + 1))).drop 1) (i + 1) (-1 * s) c =
      Function.update c i (shifted n s c i) := by
  have e : (-1 : K) * s = (-s) ^ 1 := by ring
  rw [e, shiftInner_eq s i _ (i + 1) 1 c (by omega)]
  congr 1
  have hl : ((Pascal.row n i (Pascal.rowsUpto n (n + 1))).drop 1).length = n - i := by
    rw [List.length_drop, Pascal.row_rowsUpto (by omega), Pascal.length_rowPart]; omega
  rw [hl, shifted]
  have : n + 1 - i = (n - i) + 1 := by omega
  rw [this, sum_range_succ']
  simp only [Nat.choose_zero_right, pow_zero, add_zero, Nat.cast_one, one_mul]
  rw [add_comm]
  congr 1
  refine sum_congr rfl fun k hk => ?_
  have hk' : k < n - i := mem_range.1 hk
  rw [row_drop_getD (by omega) (by omega)]
  unfold Pascal.bin
  have e1 : 1 + k = k + 1 := by omega
  have e2 : i + 1 + k = i + (k + 1) := by omega
  rw [e1, e2]
  push_cast
  rfl

theorem shiftOuter_eq {n : ℕ} (s : K) (c0 : Coeffs K) : ∀ (left i : ℕ), i + left = n → ∀ c : Coeffs K,
    (∀ j, c j = if j < i then shifted n s c0 j else c0 j) →
    ∀ j, shiftOuter n (Pascal.rowsUpto n (n + 1)) s left i c j = if j < n then shifted n s c0 j else c0 j := by
  intro left
  induction left with
  | zero =>
    intro i h c hc j
    have : i = n := by omega
    subst this
    exact hc j
  | succ left ih =>
    intro i h c hc j
    rw [shiftOuter, shiftInner_row (by omega)]
    refine ih (i + 1) (by omega) _ ?_ j
    intro j
    have hs : shifted n s c i = shifted n s c0 i := by
      unfold shifted
      refine sum_congr rfl fun k _ => ?_
      rw [hc (i + k), if_neg (by omega)]
    rcases Nat.lt_trichotomy j i with hlt | heq | hgt
    · rw [Function.update_of_ne (by omega), hc, if_pos hlt, if_pos (by omega)]
    · subst heq
      rw [Function.update_self, if_pos (by omega), hs]
    · rw [Function.update_of_ne (by omega), hc, if_neg (by omega), if_neg (by omega)]

theorem shiftHorizontal_ok {n : ℕ} (hn : n ≤ 33) (c : Coeffs K) (s : K) :
    ∃ c', shiftHorizontal n c s = .ok c' ∧ ∀ i, i ≤ n → c' i = shifted n s c i := by
  unfold shiftHorizontal
  by_cases h0 : n = 0
  · subst h0
    refine ⟨c, by simp, ?_⟩
    intro i hi
    have : i = 0 := by omega
    subst this
    simp [shifted]
  · rw [if_neg h0, Pascal.coefficients_small hn]
    refine ⟨_, rfl, ?_⟩
    intro i hi
    have := shiftOuter_eq (n := n) s c n 0 (by omega) c (by intro j; simp) i
    rw [this]
    split
    · rfl
    next h =>
      have : i = n := by omega
      subst this
      simp [shifted]

theorem eval_congr {n : ℕ} {c c' : Coeffs K} (h : ∀ i, i ≤ n → c i = c' i) (x : K) :
    eval n c x = eval n c' x := by
  rw [eval_eq_sum, eval_eq_sum]
  exact sum_congr rfl fun i hi => by rw [h i (Nat.lt_succ_iff.1 (mem_range.1 hi))]

theorem toPoly_congr {n : ℕ} {c c' : Coeffs K} (h : ∀ i, i ≤ n → c i = c' i) :
    toPoly n c = toPoly n c' := by
  unfold toPoly
  exact sum_congr rfl fun i hi => by rw [h i (Nat.lt_succ_iff.1 (mem_range.1 hi))]

open Polynomial in
theorem toPoly_shifted (n : ℕ) (s : K) (c : Coeffs K) :
    toPoly n (shifted n s c) = (toPoly n c).comp (X - C s) := by
  have h1 : (toPoly n c).comp (X - C s) = ∑ i ∈ range (n + 1), C (c i) * (X - C s) ^ i := by
    unfold toPoly
    rw [Polynomial.sum_comp]
    simp
  have h2 : ∀ i ∈ range (n + 1), C (c i) * (X - C s) ^ i =
      ∑ k ∈ range (i + 1), (fun a b => C ((Nat.choose (a + b) b : K) * (-s) ^ b * c (a + b)) * X ^ a) k (i - k) := by
    intro i _
    rw [sub_eq_add_neg, add_pow, mul_sum]
    refine sum_congr rfl fun k hk => ?_
    have hk' : k ≤ i := Nat.lt_succ_iff.1 (mem_range.1 hk)
    have e : k + (i - k) = i := by omega
    simp only [e]
    rw [Nat.choose_symm hk']
    simp only [C_mul, C_pow, C_neg, map_natCast]
    ring
  rw [h1, sum_congr rfl h2, sum_range_diag_flip (n + 1)
    (fun a b => C ((Nat.choose (a + b) b : K) * (-s) ^ b * c (a + b)) * X ^ a)]
  unfold toPoly shifted
  refine sum_congr rfl fun i _ => ?_
  rw [map_sum, sum_mul]

end Ecl.Poly

namespace Ecl.Poly
open Ecl Ecl.Spec
variable {K : Type} [Field K]

theorem derivativeAt_eq (n : ℕ) (c : Coeffs K) (x : K) :
    derivativeAt n c x = (toPoly n c).derivative.eval x := by
  rw [← toPoly_derivative, eval_toPoly, derivativeAt]
  split
  · rfl
  next h =>
    have : n = 0 := by omega
    subst this
    simp [eval, evalLoop, derivative]

theorem dderivativeAt_eq (n : ℕ) (c : Coeffs K) (x : K) :
    dderivativeAt n c x = (toPoly n c).derivative.derivative.eval x := by
  rw [← toPoly_derivative, ← toPoly_derivative, eval_toPoly, dderivativeAt]
  split
  · rfl
  next h =>
    have h' : n - 1 - 1 = 0 := by omega
    have h'' : n - 1 = 0 := by omega
    rw [h', eval, evalLoop, derivative, h'', if_neg (by omega)]

open Polynomial in
theorem shiftHorizontal_toPoly {n : ℕ} (hn : n ≤ 33) (c : Coeffs K) (s : K) :
    ∃ c', shiftHorizontal n c s = .ok c' ∧ toPoly n c' = (toPoly n c).comp (X - C s) := by
  obtain ⟨c', h, hc⟩ := shiftHorizontal_ok hn c s
  exact ⟨c', h, by rw [← toPoly_shifted]; exact toPoly_congr hc⟩

open Polynomial in
/-- Value and derivatives after the shift that ends the blueprints. -/
theorem shiftUnlessZero_spec [DecidableEq K] {n : ℕ} (hn : n ≤ 33) (c : Coeffs K) (s : K) :
    ∃ c', shiftUnlessZero n c s = .ok c' ∧
      (∀ x, eval n c' x = eval n c (x - s)) ∧
      (∀ x, derivativeAt n c' x = derivativeAt n c (x - s)) ∧
      (∀ x, dderivativeAt n c' x = dderivativeAt n c (x - s)) := by
  have H : ∃ c', shiftUnlessZero n c s = .ok c' ∧ toPoly n c' = (toPoly n c).comp (X - C s) := by
    unfold shiftUnlessZero
    split
    · exact shiftHorizontal_toPoly hn c s
    next h =>
      have : s = 0 := by simpa using h
      subst this
      exact ⟨c, rfl, by simp⟩
  obtain ⟨c', h, hc⟩ := H
  refine ⟨c', h, ?_, ?_, ?_⟩
  · intro x
    rw [← eval_toPoly, ← eval_toPoly, hc, eval_comp]; simp
  · intro x
    rw [derivativeAt_eq, derivativeAt_eq, hc, derivative_comp]
    simp [eval_comp]
  · intro x
    rw [dderivativeAt_eq, dderivativeAt_eq, hc, derivative_comp]
    simp [eval_comp, derivative_comp]

end Ecl.Poly
