import Verif.Lemmas.PolynomialFloat
import Verif.Lemmas.Double
import Mathlib.Tactic.NormNum

/-! # C114: polynomials in floating point arithmetic -/
set_option autoImplicit false
set_option linter.unusedSimpArgs false

namespace Ecl.Props
open Ecl Ecl.PolyFloat Ecl.Spec
open Ecl.Poly (Coeffs ofList)

/-- **C114.** The value of a polynomial of degree `n` is that of the polynomial up to
`((1 + 2^-53)^(2n) - 1) (|c 0| + |c 1| |x| + ... + |c n| |x|^n)`. -/
theorem C114_value {fl : ℝ → ℝ} (hfl : Rounds 53 fl) (n : ℕ) (c : ℕ → ℝ) (x : ℝ) :
    |eval fl n c x - (toPoly n c).eval x| ≤
      ((1 + 1 / 2 ^ 53) ^ (2 * n) - 1) * ∑ i ∈ Finset.range (n + 1), |c i| * |x| ^ i := by
  have h := eval_error hfl (by norm_num) (c := c) (c' := c) x (n := n) (k := 0) (by simp)
  rw [Poly.eval_toPoly, Poly.eval_eq_sum]
  exact h

/-- **C114.** The first and the second derivative, in the same way. -/
theorem C114_derivatives {fl : ℝ → ℝ} (hfl : Rounds 53 fl) (n : ℕ) (c : ℕ → ℝ) (x : ℝ) :
    |derivativeAt fl n c x - (toPoly n c).derivative.eval x| ≤
      ((1 + 1 / 2 ^ 53) ^ (2 * n - 1) - 1) * ∑ i ∈ Finset.range n, (i + 1) * |c (i + 1)| * |x| ^ i ∧
    |dderivativeAt fl n c x - (toPoly n c).derivative.derivative.eval x| ≤
      ((1 + 1 / 2 ^ 53) ^ (2 * n - 2) - 1) *
        ∑ i ∈ Finset.range (n - 1), (i + 1) * (i + 2) * |c (i + 2)| * |x| ^ i := by
  have hp : 1 ≤ 53 := by norm_num
  rw [← Poly.derivativeAt_eq, ← Poly.dderivativeAt_eq]
  have hc (i : ℕ) : |derivative fl n c i - Poly.derivative n c i| ≤
      ((1 + 1 / 2 ^ 53) ^ 1 - 1) * |Poly.derivative n c i| := by
    unfold derivative Poly.derivative
    split
    · refine round_step hfl hp (A := 1) le_rfl (by simp) |>.trans (le_of_eq ?_)
      rw [one_mul, pow_one]
    · simp
  constructor
  · unfold derivativeAt Poly.derivativeAt
    split
    next h =>
      obtain ⟨m, rfl⟩ : ∃ m, n = m + 1 := ⟨n - 1, by omega⟩
      have h := eval_error hfl hp (c := Poly.derivative (m + 1) c) x (n := m) (k := 1) fun i _ => hc i
      rw [Poly.eval_eq_sum]
      refine h.trans (le_of_eq ?_)
      rw [show 2 * (m + 1) - 1 = 2 * m + 1 by omega]
      congr 1
      refine Finset.sum_congr rfl fun i hi => ?_
      rw [Poly.derivative, if_pos (Finset.mem_range.1 hi), abs_mul, Nat.abs_cast]
      push_cast
      rfl
    next h =>
      have : n = 0 := by omega
      subst this
      simp
  · unfold dderivativeAt Poly.dderivativeAt
    split
    next h =>
      obtain ⟨m, rfl⟩ : ∃ m, n = m + 2 := ⟨n - 2, by omega⟩
      have hc2 (i : ℕ) : |derivative fl (m + 1) (derivative fl (m + 2) c) i -
          Poly.derivative (m + 1) (Poly.derivative (m + 2) c) i| ≤
          ((1 + 1 / 2 ^ 53) ^ 2 - 1) * |Poly.derivative (m + 1) (Poly.derivative (m + 2) c) i| := by
        rw [derivative, Poly.derivative]
        split
        · rw [pow_succ (1 + 1 / 2 ^ 53 : ℝ) 1]
          refine round_step hfl hp le_rfl ?_
          rw [← mul_sub, abs_mul, abs_mul]
          have := mul_le_mul_of_nonneg_left (hc (i + 1)) (abs_nonneg ((i + 1 : ℕ) : ℝ))
          linarith
        · simp
      have h := eval_error hfl hp (c := Poly.derivative (m + 1) (Poly.derivative (m + 2) c)) x (n := m) (k := 2)
        fun i _ => hc2 i
      rw [Poly.eval_eq_sum]
      refine h.trans (le_of_eq ?_)
      rw [show 2 * (m + 2) - 2 = 2 * m + 2 by omega]
      congr 1
      refine Finset.sum_congr rfl fun i hi => ?_
      have hi' := Finset.mem_range.1 hi
      rw [Poly.derivative, if_pos (by omega), Poly.derivative, if_pos (by omega), abs_mul, abs_mul, Nat.abs_cast, Nat.abs_cast]
      push_cast
      ring
    next h =>
      have : n - 1 = 0 := by omega
      rw [this]
      simp

/-- **C114.** With integers for coefficients and argument, nothing is rounded while the numbers stay below `2^53`. -/
theorem C114_integers {fl : ℝ → ℝ} (hfl : Rounds 53 fl) (n : ℕ) (c : ℕ → ℤ) (z : ℤ) (hz : |z| ^ n ≤ 2 ^ 53)
    (hs : ∑ i ∈ Finset.range (n + 1), |c i| * |z| ^ i ≤ 2 ^ 53) :
    eval fl n (fun i => (c i : ℝ)) z = (((toPoly n c).eval z : ℤ) : ℝ) := by
  have h := evalLoop_int hfl (by norm_num) hz hs n 1 z (c 0) (by omega) (by simp) (by simp)
  rw [eval, h]
  congr 1
  simp [toPoly, Polynomial.eval_finset_sum]

/-- **C114.** The root of a linear function has a relative error of at most `2^-53`; a constant has no root. -/
theorem C114_linear {fl : ℝ → ℝ} (hfl : Rounds 53 fl) (c : ℕ → ℝ) :
    (c 1 = 0 → linearRoots fl c = []) ∧
    (c 1 ≠ 0 → ∃ r, linearRoots fl c = [r] ∧ ∃ x, c 0 + c 1 * x = 0 ∧ |r - x| ≤ |x| / 2 ^ 53) := by
  refine ⟨fun h => by simp [linearRoots, h], fun h => ⟨fl (-1 * c 0 / c 1), by rw [linearRoots, if_pos h], -1 * c 0 / c 1, ?_, ?_⟩⟩
  · field_simp
    ring
  · exact hfl.relative (by norm_num) _

/-- **C114.** Every number returned as a root of a quadratic almost is one: the polynomial is at most
`4 (b^2 / |a| + 4 |c|) / 2^53` there. -/
theorem C114_residual {fl : ℝ → ℝ} (hfl : Rounds 53 fl) (q : ℕ → ℝ) (ha : q 2 ≠ 0) (r : ℝ)
    (hr : r ∈ quadraticRoots fl q) : |(toPoly 2 q).eval r| ≤ 4 * (q 1 ^ 2 / |q 2| + 4 * |q 0|) / 2 ^ 53 := by
  have h := quadratic_residual hfl (by norm_num) ha hr
  refine le_trans (le_of_eq (congrArg _ ?_)) h
  rw [Poly.eval_toPoly, Poly.eval_eq_sum]
  simp only [Finset.sum_range_succ, Finset.sum_range_zero]
  ring

/-- **C114.** As many roots are returned as there are, unless the discriminant is below `3 (b^2 + 4 |a c|) / 2^53`. -/
theorem C114_count_partial {fl : ℝ → ℝ} (hfl : Rounds 53 fl) (q : ℕ → ℝ) (ha : q 2 ≠ 0)
    (h : 3 * (q 1 ^ 2 + 4 * |q 2 * q 0|) / 2 ^ 53 < |q 1 ^ 2 - 4 * q 2 * q 0|) :
    (quadraticRoots fl q).length = {x : ℝ | (toPoly 2 q).eval x = 0}.ncard := by
  rw [quadratic_count hfl (by norm_num) ha h]
  congr 1
  ext x
  rw [Set.mem_setOf_eq, Set.mem_setOf_eq, Poly.eval_toPoly, Poly.eval_eq_sum]
  simp only [Finset.sum_range_succ, Finset.sum_range_zero]
  rw [show q 2 * x ^ 2 + q 1 * x + q 0 = 0 + q 0 * x ^ 0 + q 1 * x ^ 1 + q 2 * x ^ 2 by ring]

/-- **C114.** If the ends have opposite signs, the root of larger absolute value has a relative error of at most
`(1 + 2^-53)^5 - 1`. -/
theorem C114_larger_root_partial {fl : ℝ → ℝ} (hfl : Rounds 53 fl) (q : ℕ → ℝ) (hac : q 2 * q 0 < 0) :
    ∃ r ∈ quadraticRoots fl q, ∃ x, (toPoly 2 q).eval x = 0 ∧ (∀ y, (toPoly 2 q).eval y = 0 → |y| ≤ |x|) ∧
      |r - x| ≤ ((1 + 1 / 2 ^ 53) ^ 5 - 1) * |x| := by
  have value (x : ℝ) : (toPoly 2 q).eval x = q 2 * x ^ 2 + q 1 * x + q 0 := by
    rw [Poly.eval_toPoly, Poly.eval_eq_sum]
    simp only [Finset.sum_range_succ, Finset.sum_range_zero]
    ring
  simp only [value]
  have ha : q 2 ≠ 0 := by
    intro h
    simp [h] at hac
  have hd := discriminant_error hfl (by norm_num) (q 2) (q 1) (q 0)
  simp only [quadraticRoots, if_neg ha]
  have hlarge (e : ℝ) (he : e = 1 ∨ e = -1) (hb : 0 ≤ -q 1 * e) :=
    large_root hfl (by norm_num) hac.le e he hb (a := q 2) (b := q 1) (c := q 0)
  generalize q 2 = a at *
  generalize q 1 = b at *
  generalize q 0 = c at *
  have hD : 0 < b ^ 2 - 4 * a * c := by nlinarith [sq_nonneg b]
  have hM : b ^ 2 + 4 * |a * c| = b ^ 2 - 4 * a * c := by rw [abs_of_neg hac]; ring
  rw [hM] at hd
  have hpos : discriminant fl a b c > 0 := by
    have := (abs_le.1 hd).1
    nlinarith
  rw [if_pos hpos]
  have hs := Real.sq_sqrt hD.le
  have hs0 := Real.sqrt_pos.2 hD
  generalize Real.sqrt (b ^ 2 - 4 * a * c) = s at *
  have zero (e : ℝ) (he : e = 1 ∨ e = -1) :
      a * ((-b + e * s) / (2 * a)) ^ 2 + b * ((-b + e * s) / (2 * a)) + c = 0 := by
    have he2 : e ^ 2 = 1 := by rcases he with rfl | rfl <;> norm_num
    rw [quotient_value ha _ rfl]
    rw [show (-b + e * s) ^ 2 + 2 * b * (-b + e * s) + 4 * a * c = 0 by linear_combination s ^ 2 * he2 + hs]
    simp
  have large (e : ℝ) (he : e = 1 ∨ e = -1) (hb : 0 ≤ -b * e) (y : ℝ) (hy : a * y ^ 2 + b * y + c = 0) :
      |y| ≤ |(-b + e * s) / (2 * a)| := by
    have h2a : (0 : ℝ) < |2 * a| := abs_pos.2 (by simpa using ha)
    rw [abs_div, le_div_iff₀ h2a, ← abs_mul]
    have : (y * (2 * a) - (-b + s)) * (y * (2 * a) - (-b - s)) = 0 := by linear_combination 4 * a * hy - hs
    have hb' : |-b + e * s| = |b| + s := by
      rcases he with rfl | rfl
      · rw [abs_of_nonneg (by linarith), abs_of_nonpos (by linarith)]
        ring
      · rw [abs_of_nonpos (by linarith), abs_of_nonneg (by linarith)]
        ring
    rw [hb']
    have e1 : |s| = s := abs_of_pos hs0
    rcases mul_eq_zero.1 this with h | h
    · rw [show y * (2 * a) = -b + s by linarith]
      refine (abs_add_le _ _).trans ?_
      rw [abs_neg, e1]
    · rw [show y * (2 * a) = -b - s by linarith]
      refine (abs_sub _ _).trans ?_
      rw [abs_neg, e1]
  rcases le_total b 0 with hb | hb
  · refine ⟨_, List.mem_cons_self, _, zero 1 (Or.inl rfl), large 1 (Or.inl rfl) (by linarith), ?_⟩
    have := hlarge 1 (Or.inl rfl) (by linarith)
    rwa [one_mul] at this
  · refine ⟨_, List.mem_cons_of_mem _ List.mem_cons_self, _, zero (-1) (Or.inr rfl),
      large (-1) (Or.inr rfl) (by linarith), ?_⟩
    have := hlarge (-1) (Or.inr rfl) (by linarith)
    rwa [neg_one_mul, ← sub_eq_add_neg] at this

/-- **C114 fails.** `(x - 1)^2` at `1 + 2^-30` is positive; its value comes out as 0. -/
theorem C114_fails_value {fl : ℝ → ℝ} (hfl : Rounds 53 fl) :
    eval fl 2 (ofList [1, -2, 1]) (1 + 1 / 2 ^ 30) = 0 ∧
    0 < (toPoly 2 (ofList [(1 : ℝ), -2, 1])).eval (1 + 1 / 2 ^ 30) := by
  constructor
  · have h1 : fl (-2 * (1 + 1 / 2 ^ 30)) = -2 * (1 + 1 / 2 ^ 30) := by
      refine hfl.self ?_
      have := isFloat_int (p := 53) (by norm_num) (z := -2 * (2 ^ 30 + 1)) (by norm_num)
      have := isFloat_grid (p := 53) (by norm_num) (k := -2 * (2 ^ 30 + 1)) (E := -30) (by norm_num)
      norm_num at this ⊢
      exact this
    have h2 : fl (1 + -2 * (1 + 1 / 2 ^ 30)) = -1 - 1 / 2 ^ 29 := by
      rw [show (1 : ℝ) + -2 * (1 + 1 / 2 ^ 30) = -1 - 1 / 2 ^ 29 by norm_num]
      refine hfl.self ?_
      have := isFloat_grid (p := 53) (by norm_num) (k := -(2 ^ 29 + 1)) (E := -29) (by norm_num)
      norm_num at this ⊢
      exact this
    have h3 : fl ((1 + 1 / 2 ^ 30) * (1 + 1 / 2 ^ 30)) = 1 + 1 / 2 ^ 29 := by
      rw [round_to hfl (by norm_num) (2 ^ 52 + 2 ^ 23) (-52) (by norm_num) (by norm_num) (by norm_num [abs_lt])]
      norm_num
    have h4 : fl (1 * (1 + 1 / 2 ^ 29)) = 1 + 1 / 2 ^ 29 := by
      rw [one_mul, ← h3]
      exact hfl.self (hfl _).1
    have h5 : fl (-1 - 1 / 2 ^ 29 + (1 + 1 / 2 ^ 29)) = 0 := by
      rw [show (-1 - 1 / 2 ^ 29 + (1 + 1 / 2 ^ 29) : ℝ) = 0 by norm_num]
      exact hfl.self (isFloat_zero 53)
    simp only [eval, evalLoop, ofList, List.getD_cons_zero, List.getD_cons_succ]
    rw [h1, h2, h3, h4, h5]
  · rw [Poly.eval_toPoly, Poly.eval_eq_sum]
    simp only [Finset.sum_range_succ, Finset.sum_range_zero, ofList, List.getD_cons_zero, List.getD_cons_succ]
    norm_num

/-- **C114 fails.** `x^2 + 2^28 x + 1/2` has two roots, both negative; 0 is returned for the smaller one. -/
theorem C114_fails_small_root {fl : ℝ → ℝ} (hfl : Rounds 53 fl) :
    0 ∈ quadraticRoots fl (ofList [1 / 2, 2 ^ 28, 1]) ∧
    ∀ x : ℝ, (toPoly 2 (ofList [(1 / 2 : ℝ), 2 ^ 28, 1])).eval x = 0 → x < 0 := by
  constructor
  · have h1 : fl ((2 : ℝ) ^ 28 * 2 ^ 28) = 2 ^ 56 := by
      rw [round_to hfl (by norm_num) (2 ^ 53) 3 (by norm_num) (by norm_num) (by norm_num)]
      norm_num
    have h2 : fl ((4 : ℝ) * 1 * (1 / 2)) = 2 := by
      rw [show (4 : ℝ) * 1 * (1 / 2) = (2 : ℕ) by norm_num]
      exact hfl.self (isFloat_nat (by norm_num) (by norm_num))
    have h3 : fl ((2 : ℝ) ^ 56 - 2) = 2 ^ 56 := by
      rw [round_to hfl (by norm_num) (2 ^ 53) 3 (by norm_num) (by norm_num) (by norm_num [abs_lt])]
      norm_num
    have hd : discriminant fl 1 (2 ^ 28) (1 / 2) = 2 ^ 56 := by
      rw [discriminant, h1, h2, h3]
    have hq : Real.sqrt ((2 : ℝ) ^ 56) = 2 ^ 28 := by
      rw [show (2 : ℝ) ^ 56 = (2 ^ 28) ^ 2 by norm_num]
      exact Real.sqrt_sq (by norm_num)
    have h4 : fl ((2 : ℝ) ^ 28) = 2 ^ 28 := by
      have := hfl.self (isFloat_nat (p := 53) (n := 2 ^ 28) (by norm_num) (by norm_num))
      norm_num at this ⊢
      exact this
    have h0 : fl 0 = 0 := hfl.self (isFloat_zero 53)
    simp only [quadraticRoots, ofList, List.getD_cons_zero, List.getD_cons_succ, hd]
    rw [if_neg (by norm_num), if_pos (by norm_num), hq, h4, neg_add_cancel, h0, zero_div, h0]
    exact List.mem_cons_self
  · intro x hx
    rw [Poly.eval_toPoly, Poly.eval_eq_sum] at hx
    simp only [Finset.sum_range_succ, Finset.sum_range_zero, ofList, List.getD_cons_zero, List.getD_cons_succ] at hx
    by_contra hc
    nlinarith

/-- **C114 fails.** `x^2 + 2 (2^27 + 1) x + 2^54 + 2^28` has the roots `-2^27` and `-2^27 - 2`; one root is returned,
the number between them. -/
theorem C114_fails_count {fl : ℝ → ℝ} (hfl : Rounds 53 fl) :
    quadraticRoots fl (ofList [2 ^ 54 + 2 ^ 28, 2 * (2 ^ 27 + 1), 1]) = [-(2 ^ 27 + 1)] ∧
    {x : ℝ | (toPoly 2 (ofList [(2 ^ 54 + 2 ^ 28 : ℝ), 2 * (2 ^ 27 + 1), 1])).eval x = 0} = {-2 ^ 27, -2 ^ 27 - 2} := by
  constructor
  · have h1 : fl ((2 * (2 ^ 27 + 1) : ℝ) * (2 * (2 ^ 27 + 1))) = 2 ^ 56 + 2 ^ 30 := by
      rw [round_to hfl (by norm_num) (2 ^ 52 + 2 ^ 26) 4 (by norm_num) (by norm_num) (by norm_num [abs_lt])]
      norm_num
    have h2 : fl ((4 : ℝ) * 1 * (2 ^ 54 + 2 ^ 28)) = 2 ^ 56 + 2 ^ 30 := by
      rw [round_to hfl (by norm_num) (2 ^ 52 + 2 ^ 26) 4 (by norm_num) (by norm_num) (by norm_num)]
      norm_num
    have h0 : fl 0 = 0 := hfl.self (isFloat_zero 53)
    have hd : discriminant fl 1 (2 * (2 ^ 27 + 1)) (2 ^ 54 + 2 ^ 28) = 0 := by
      rw [discriminant, h1, h2, sub_self, h0]
    have h3 : fl (-(2 * (2 ^ 27 + 1)) / (2 * 1)) = -(2 ^ 27 + 1) := by
      rw [show (-(2 * (2 ^ 27 + 1)) / (2 * 1) : ℝ) = -(2 ^ 27 + 1) by norm_num]
      have := hfl.self (isFloat_int (p := 53) (z := -(2 ^ 27 + 1)) (by norm_num) (by norm_num))
      norm_num at this ⊢
      exact this
    simp only [quadraticRoots, ofList, List.getD_cons_zero, List.getD_cons_succ, hd]
    rw [if_neg (by norm_num), if_neg (by norm_num), if_pos trivial, h3]
  · ext x
    rw [Set.mem_setOf_eq, Poly.eval_toPoly, Poly.eval_eq_sum]
    simp only [Finset.sum_range_succ, Finset.sum_range_zero, ofList, List.getD_cons_zero, List.getD_cons_succ,
      Set.mem_insert_iff, Set.mem_singleton_iff]
    constructor
    · intro h
      have : (x + 2 ^ 27) * (x + 2 ^ 27 + 2) = 0 := by linear_combination h
      rcases mul_eq_zero.1 this with h | h
      · left; linarith
      · right; linarith
    · rintro (rfl | rfl) <;> norm_num

/-! ## Examples -/

/-- Some rounding exists, so the theorems speak about something. -/
example : ∃ fl : ℝ → ℝ, Rounds 53 fl := ⟨_, rounds_double.2 round53_nearest⟩

/-- `2 + 3 x + x^2` at 1000 meets the hypotheses of `C114_integers`. -/
example {fl : ℝ → ℝ} (hfl : Rounds 53 fl) :
    eval fl 2 (fun i => ((([2, 3, 1] : List ℤ).getD i 0 : ℤ) : ℝ)) (1000 : ℤ) = 1003002 := by
  rw [C114_integers hfl 2 (fun i => ([2, 3, 1] : List ℤ).getD i 0) 1000 (by norm_num)
    (by simp [Finset.sum_range_succ])]
  rw [toPoly]
  simp [Finset.sum_range_succ]

/-- `x^2 - 3 x + 2`: two roots. -/
example {fl : ℝ → ℝ} (hfl : Rounds 53 fl) :
    (quadraticRoots fl (ofList [2, -3, 1])).length = {x : ℝ | (toPoly 2 (ofList [(2 : ℝ), -3, 1])).eval x = 0}.ncard :=
  C114_count_partial hfl _ (by simp [ofList]) (by simp [ofList]; norm_num)

end Ecl.Props
