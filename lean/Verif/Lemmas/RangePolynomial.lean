import Verif.Lemmas.RangeAngle
import Verif.Lemmas.PolynomialFloat

/-! # Polynomials: the limits of the exponent -/
set_option autoImplicit false

namespace Ecl.PolyFloat
open Ecl.Spec Ecl.AngleFloat
open Ecl.Poly (Coeffs ofList)

/-! ## Evaluation -/

/-- Rounding a number that is known up to an error. -/
theorem step_error {fl : ℝ → ℝ} (hfl : RoundsDouble fl) {y y' A B w η : ℝ} {k : ℕ} (hw : w = 1 + 1 / 2 ^ 53)
    (hη : η = 2 ^ (-1075 : ℤ)) (hy : |y| ≤ A) (h : |y' - y| ≤ (w ^ k - 1) * A + η * B) (hm : |y'| ≤ largest 53 1024) :
    |fl y' - y| ≤ (w ^ (k + 1) - 1) * A + η * (w * B + 1) := by
  have h1 := hfl.error hm
  rw [← hη] at h1
  have h2 := abs_sub_le (fl y') y' y
  have h3 : |y'| ≤ |y' - y| + |y| := by
    have := abs_add_le (y' - y) y
    rwa [sub_add_cancel] at this
  have hu : |y'| / 2 ^ 53 = (w - 1) * |y'| := by rw [hw]; ring
  have hu0 : 0 ≤ w - 1 := by rw [hw]; norm_num
  rw [hu] at h1
  have h4 : (w - 1) * |y'| ≤ (w - 1) * ((w ^ k - 1) * A + η * B + A) :=
    mul_le_mul_of_nonneg_left (by linarith) hu0
  have e : (w ^ (k + 1) - 1) * A + η * (w * B + 1) =
      (w - 1) * ((w ^ k - 1) * A + η * B + A) + η + ((w ^ k - 1) * A + η * B) := by ring
  rw [e]
  linarith

/-- Weights of the absolute errors. -/
noncomputable def lost (w C X : ℝ) (k : ℕ) : ℝ := k * (k * C + 2) * w ^ (2 * k) * X ^ k

theorem lost_step {w C X : ℝ} (hw : 1 ≤ w) (hC : 0 ≤ C) (hX : 1 ≤ X) (k : ℕ) :
    w * (lost w C X k + (w * (C * (k * w ^ k * X ^ k)) + 1)) + 1 ≤ lost w C X (k + 1) := by
  have hZ : 1 ≤ w ^ (2 * (k + 1)) * X ^ (k + 1) := one_le_mul_of_one_le_of_one_le (one_le_pow₀ hw) (one_le_pow₀ hX)
  have hXk : X ^ k ≤ X ^ (k + 1) := pow_le_pow_right₀ hX (by omega)
  have h1 : w * (w ^ (2 * k) * X ^ k) ≤ w ^ (2 * (k + 1)) * X ^ (k + 1) := by
    rw [← mul_assoc, ← pow_succ']
    exact mul_le_mul (pow_le_pow_right₀ hw (by omega)) hXk (by positivity) (by positivity)
  have h2 : w ^ 2 * (w ^ k * X ^ k) ≤ w ^ (2 * (k + 1)) * X ^ (k + 1) := by
    rw [← mul_assoc, ← pow_add]
    exact mul_le_mul (pow_le_pow_right₀ hw (by omega)) hXk (by positivity) (by positivity)
  have h3 : w ≤ w ^ (2 * (k + 1)) * X ^ (k + 1) := by
    have : w ^ 1 ≤ w ^ (2 * (k + 1)) := pow_le_pow_right₀ hw (by omega)
    have hx : 1 ≤ X ^ (k + 1) := one_le_pow₀ hX
    rw [pow_one] at this
    nlinarith
  have hk : (0 : ℝ) ≤ k := by positivity
  have a1 := mul_le_mul_of_nonneg_left h1 (by positivity : (0 : ℝ) ≤ k * (k * C + 2))
  have a2 := mul_le_mul_of_nonneg_left h2 (by positivity : (0 : ℝ) ≤ k * C)
  have e1 : w * (lost w C X k + (w * (C * (k * w ^ k * X ^ k)) + 1)) + 1 =
      k * (k * C + 2) * (w * (w ^ (2 * k) * X ^ k)) + k * C * (w ^ 2 * (w ^ k * X ^ k)) + w + 1 := by
    rw [lost]; ring
  have e2 : lost w C X (k + 1) = ((k * (k * C + 2) + k * C + 2) + (k + 1) * C) * (w ^ (2 * (k + 1)) * X ^ (k + 1)) := by
    rw [lost]; push_cast; ring
  rw [e1, e2]
  have h5 : 0 ≤ ((k : ℝ) + 1) * C * (w ^ (2 * (k + 1)) * X ^ (k + 1)) := by positivity
  generalize w ^ (2 * (k + 1)) * X ^ (k + 1) = Z at *
  nlinarith

theorem power_step {w X : ℝ} (hw : 1 ≤ w) (hX : 1 ≤ X) (k : ℕ) :
    w * (X * (k * w ^ k * X ^ k)) + 1 ≤ ((k + 1 : ℕ) : ℝ) * w ^ (k + 1) * X ^ (k + 1) := by
  have hZ : 1 ≤ w ^ (k + 1) * X ^ (k + 1) := one_le_mul_of_one_le_of_one_le (one_le_pow₀ hw) (one_le_pow₀ hX)
  have e : w * (X * (k * w ^ k * X ^ k)) = k * (w ^ (k + 1) * X ^ (k + 1)) := by ring
  rw [e]
  push_cast
  nlinarith

section
variable {fl : ℝ → ℝ} (hfl : RoundsDouble fl) {n : ℕ} {c : ℕ → ℝ} {x C X w η T : ℝ} (hw : w = 1 + 1 / 2 ^ 53)
  (hη : η = 2 ^ (-1075 : ℤ)) (hC : 1 ≤ C) (hX : 1 ≤ X) (hc : ∀ i, i ≤ n → |c i| ≤ C) (hx : |x| ≤ X)
  (hn : n ≤ 2 ^ 50) (hB : C * X ^ n ≤ T) (hT : 2 ^ 100 * T ≤ largest 53 1024)

theorem w_pow {w : ℝ} (hw : w = 1 + 1 / 2 ^ 53) {k : ℕ} (hk : k ≤ 2 ^ 52) : 1 ≤ w ^ k ∧ w ^ k ≤ 2 := by
  have h1 : (1 : ℝ) ≤ w := by rw [hw]; norm_num
  refine ⟨one_le_pow₀ h1, ?_⟩
  have hb : w ^ k ≤ w ^ (2 ^ 52) := pow_le_pow_right₀ h1 hk
  refine hb.trans ?_
  have h2 : (w : ℝ) ≤ Real.exp (1 / 2 ^ 53) := by rw [hw, add_comm]; exact Real.add_one_le_exp _
  have h3 : w ^ (2 ^ 52) ≤ Real.exp (1 / 2) := by
    refine (pow_le_pow_left₀ (by linarith) h2 _).trans (le_of_eq ?_)
    rw [← Real.exp_nat_mul]
    congr 1
    norm_num
  refine h3.trans ?_
  have h4 := Real.exp_bound_div_one_sub_of_interval (x := 1 / 2) (by norm_num) (by norm_num)
  norm_num at h4 ⊢
  exact h4

set_option maxHeartbeats 1000000 in
include hfl hw hη hC hX hc hx hn hB hT in
theorem evalLoop_range : ∀ (left i : ℕ) (tmp value : ℝ), i + left = n + 1 → 1 ≤ i →
    (i ≤ n → |tmp - x ^ i| ≤ (w ^ (i - 1) - 1) * |x| ^ i + η * (((i - 1 : ℕ) : ℝ) * w ^ (i - 1) * X ^ (i - 1))) →
    |value - ∑ j ∈ Finset.range i, c j * x ^ j| ≤
      (w ^ (2 * (i - 1)) - 1) * ∑ j ∈ Finset.range i, |c j| * |x| ^ j + η * lost w C X (i - 1) →
    |evalLoop fl c x left i tmp value - ∑ j ∈ Finset.range (n + 1), c j * x ^ j| ≤
      (w ^ (2 * n) - 1) * ∑ j ∈ Finset.range (n + 1), |c j| * |x| ^ j + η * lost w C X n := by
  have hw1 : 1 ≤ w := by rw [hw]; norm_num
  have hη0 : 0 ≤ η := by rw [hη]; positivity
  have hη1 : η ≤ 1 / 2 ^ 200 := by
    rw [hη, one_div, ← zpow_natCast, ← zpow_neg]
    exact zpow_le_zpow_right₀ (by norm_num) (by norm_num)
  have hXn : (1 : ℝ) ≤ X ^ n := one_le_pow₀ hX
  have hsum (i : ℕ) (hi : i ≤ n + 1) : ∑ j ∈ Finset.range i, |c j| * |x| ^ j ≤ i * (C * X ^ n) := by
    have : ∀ j ∈ Finset.range i, |c j| * |x| ^ j ≤ C * X ^ n := by
      intro j hj
      have hj' := Finset.mem_range.1 hj
      have h1 : |x| ^ j ≤ X ^ n := (pow_le_pow_left₀ (abs_nonneg _) hx j).trans (pow_le_pow_right₀ hX (by omega))
      exact mul_le_mul (hc j (by omega)) h1 (by positivity) (by linarith)
    refine (Finset.sum_le_card_nsmul _ _ _ this).trans (le_of_eq ?_)
    simp
  have hnr : (n : ℝ) ≤ 2 ^ 50 := by exact_mod_cast hn
  intro left
  induction left with
  | zero =>
    intro i tmp value hi h1 _ hv
    obtain rfl : i = n + 1 := by omega
    exact hv
  | succ left ih =>
    intro i tmp value hi h1 ht hv
    obtain ⟨k, rfl⟩ : ∃ k, i = k + 1 := ⟨i - 1, by omega⟩
    have hkn : k + 1 ≤ n := by omega
    replace ht := ht hkn
    simp only [Nat.add_sub_cancel] at ht hv
    have hk50 : k ≤ 2 ^ 52 := by omega
    have hwk := w_pow hw hk50
    have hw2k := w_pow hw (k := 2 * k) (by omega)
    have hkr : (k : ℝ) ≤ 2 ^ 50 := by
      have : k ≤ 2 ^ 50 := by omega
      exact_mod_cast this
    have hXk : X ^ k ≤ X ^ n := pow_le_pow_right₀ hX (by omega)
    have hXk1 : |x| ^ (k + 1) ≤ X ^ n := (pow_le_pow_left₀ (abs_nonneg _) hx _).trans (pow_le_pow_right₀ hX hkn)
    have hX0 : 0 ≤ X ^ k := by positivity
    have hbk : (k : ℝ) * w ^ k * X ^ k ≤ 2 ^ 51 * X ^ n := by
      have h2 : (k : ℝ) * w ^ k ≤ 2 ^ 50 * 2 := mul_le_mul hkr hwk.2 (by linarith) (by norm_num)
      refine (mul_le_mul h2 hXk hX0 (by norm_num)).trans (le_of_eq (by ring))
    have hηb : η * ((k : ℝ) * w ^ k * X ^ k) ≤ X ^ n := by
      have h2 := mul_le_mul hη1 hbk (by positivity) (by positivity)
      refine h2.trans ?_
      norm_num
      linarith
    have hηx : k + 1 + 1 ≤ n → η * ((k : ℝ) * w ^ k * X ^ k) * X ≤ X ^ n := by
      intro h
      have hXX : X ^ k * X ≤ X ^ n := by
        rw [← pow_succ]
        exact pow_le_pow_right₀ hX (by omega)
      have h2 : (k : ℝ) * w ^ k ≤ 2 ^ 50 * 2 := mul_le_mul hkr hwk.2 (by linarith) (by norm_num)
      have h3 : (k : ℝ) * w ^ k * X ^ k * X ≤ 2 ^ 51 * X ^ n := by
        rw [mul_assoc _ (X ^ k)]
        exact (mul_le_mul h2 hXX (by positivity) (by norm_num)).trans (le_of_eq (by ring))
      have h4 := mul_le_mul hη1 h3 (by positivity) (by positivity)
      rw [mul_assoc]
      refine h4.trans ?_
      norm_num
      linarith
    have hpow0 : 0 ≤ |x| ^ (k + 1) := by positivity
    have htmp : |tmp| ≤ 4 * X ^ n := by
      have h2 : |tmp| ≤ |tmp - x ^ (k + 1)| + |x| ^ (k + 1) := by
        have := abs_add_le (tmp - x ^ (k + 1)) (x ^ (k + 1))
        rwa [sub_add_cancel, abs_pow] at this
      nlinarith
    -- the product
    have hprod : |fl (c (k + 1) * tmp) - c (k + 1) * x ^ (k + 1)| ≤
        (w ^ (k + 1) - 1) * (|c (k + 1)| * |x| ^ (k + 1)) + η * (w * (C * (k * w ^ k * X ^ k)) + 1) := by
      refine step_error hfl hw hη (by rw [abs_mul, abs_pow]) ?_ ?_
      · rw [← mul_sub, abs_mul]
        have h2 := mul_le_mul_of_nonneg_left ht (abs_nonneg (c (k + 1)))
        have h3 : |c (k + 1)| * (η * (k * w ^ k * X ^ k)) ≤ C * (η * (k * w ^ k * X ^ k)) :=
          mul_le_mul_of_nonneg_right (hc _ hkn) (by positivity)
        linarith
      · rw [abs_mul]
        have h2 := mul_le_mul (hc _ hkn) htmp (abs_nonneg _) (by linarith : 0 ≤ C)
        refine h2.trans (le_trans ?_ hT)
        have : C * (4 * X ^ n) = 4 * (C * X ^ n) := by ring
        rw [this]
        have hCX : 0 ≤ C * X ^ n := by positivity
        norm_num
        linarith
    -- the sum
    have hcx : |c (k + 1)| * |x| ^ (k + 1) ≤ C * X ^ n := mul_le_mul (hc _ hkn) hXk1 hpow0 (by linarith)
    have hS := hsum (k + 1) (by omega)
    have hS0 : 0 ≤ ∑ j ∈ Finset.range (k + 1), |c j| * |x| ^ j := Finset.sum_nonneg fun j _ => by positivity
    have hlost0 : 0 ≤ lost w C X k := by unfold lost; positivity
    have hlost : η * lost w C X k ≤ C * X ^ n := by
      have h2 : lost w C X k ≤ 2 ^ 50 * (2 ^ 50 * C + 2) * 2 * X ^ n := by
        unfold lost
        refine mul_le_mul (mul_le_mul (mul_le_mul hkr ?_ (by positivity) (by norm_num)) hw2k.2 (by positivity)
          (by positivity)) hXk hX0 (by positivity)
        have := mul_le_mul_of_nonneg_right hkr (by linarith : 0 ≤ C)
        linarith
      refine (mul_le_mul hη1 h2 hlost0 (by positivity)).trans ?_
      have h3 : 2 ^ 50 * (2 ^ 50 * C + 2) * 2 * X ^ n ≤ 2 ^ 103 * (C * X ^ n) := by
        have : X ^ n ≤ C * X ^ n := by nlinarith
        norm_num
        nlinarith
      refine (mul_le_mul_of_nonneg_left h3 (by positivity)).trans ?_
      have hCX : 0 ≤ C * X ^ n := by positivity
      norm_num
      linarith
    have hval : |fl (value + fl (c (k + 1) * tmp)) - ∑ j ∈ Finset.range (k + 1 + 1), c j * x ^ j| ≤
        (w ^ (2 * (k + 1)) - 1) * ∑ j ∈ Finset.range (k + 1 + 1), |c j| * |x| ^ j + η * lost w C X (k + 1) := by
      have hcomb : |value + fl (c (k + 1) * tmp) - ∑ j ∈ Finset.range (k + 1 + 1), c j * x ^ j| ≤
          (w ^ (2 * k + 1) - 1) * ∑ j ∈ Finset.range (k + 1 + 1), |c j| * |x| ^ j +
            η * (lost w C X k + (w * (C * (k * w ^ k * X ^ k)) + 1)) := by
        rw [Finset.sum_range_succ, Finset.sum_range_succ (fun j => |c j| * |x| ^ j)]
        have h2 := abs_add_le (value - ∑ j ∈ Finset.range (k + 1), c j * x ^ j)
          (fl (c (k + 1) * tmp) - c (k + 1) * x ^ (k + 1))
        have e : value - ∑ j ∈ Finset.range (k + 1), c j * x ^ j +
            (fl (c (k + 1) * tmp) - c (k + 1) * x ^ (k + 1)) =
            value + fl (c (k + 1) * tmp) - (∑ j ∈ Finset.range (k + 1), c j * x ^ j + c (k + 1) * x ^ (k + 1)) := by ring
        rw [e] at h2
        have h3 : (w ^ (2 * k) - 1) * ∑ j ∈ Finset.range (k + 1), |c j| * |x| ^ j ≤
            (w ^ (2 * k + 1) - 1) * ∑ j ∈ Finset.range (k + 1), |c j| * |x| ^ j := by
          refine mul_le_mul_of_nonneg_right ?_ hS0
          have := pow_le_pow_right₀ hw1 (by omega : 2 * k ≤ 2 * k + 1)
          linarith
        have h4 : (w ^ (k + 1) - 1) * (|c (k + 1)| * |x| ^ (k + 1)) ≤
            (w ^ (2 * k + 1) - 1) * (|c (k + 1)| * |x| ^ (k + 1)) := by
          refine mul_le_mul_of_nonneg_right ?_ (by positivity)
          have := pow_le_pow_right₀ hw1 (by omega : k + 1 ≤ 2 * k + 1)
          linarith
        linarith
      have hA : |∑ j ∈ Finset.range (k + 1 + 1), c j * x ^ j| ≤ ∑ j ∈ Finset.range (k + 1 + 1), |c j| * |x| ^ j := by
        refine (Finset.abs_sum_le_sum_abs _ _).trans (le_of_eq ?_)
        refine Finset.sum_congr rfl fun j _ => ?_
        rw [abs_mul, abs_pow]
      have hbig : |value + fl (c (k + 1) * tmp)| ≤ largest 53 1024 := by
        have h2 : |value| ≤ 2 ^ 53 * (C * X ^ n) := by
          have h3 : |value| ≤ |value - ∑ j ∈ Finset.range (k + 1), c j * x ^ j| +
              |∑ j ∈ Finset.range (k + 1), c j * x ^ j| := by
            have := abs_add_le (value - ∑ j ∈ Finset.range (k + 1), c j * x ^ j)
              (∑ j ∈ Finset.range (k + 1), c j * x ^ j)
            rwa [sub_add_cancel] at this
          have h4 : |∑ j ∈ Finset.range (k + 1), c j * x ^ j| ≤ ∑ j ∈ Finset.range (k + 1), |c j| * |x| ^ j := by
            refine (Finset.abs_sum_le_sum_abs _ _).trans (le_of_eq ?_)
            refine Finset.sum_congr rfl fun j _ => ?_
            rw [abs_mul, abs_pow]
          have h5 : (w ^ (2 * k) - 1) * ∑ j ∈ Finset.range (k + 1), |c j| * |x| ^ j ≤
              1 * ∑ j ∈ Finset.range (k + 1), |c j| * |x| ^ j := mul_le_mul_of_nonneg_right (by linarith) hS0
          have h6 : ((k + 1 : ℕ) : ℝ) * (C * X ^ n) ≤ 2 ^ 50 * (C * X ^ n) := by
            refine mul_le_mul_of_nonneg_right ?_ (by positivity)
            have : k + 1 ≤ 2 ^ 50 := by omega
            exact_mod_cast this
          have hCX : 0 ≤ C * X ^ n := by positivity
          generalize C * X ^ n = R at *
          generalize ∑ j ∈ Finset.range (k + 1), |c j| * |x| ^ j = S at *
          norm_num at hS h6 ⊢
          linarith
        have h3 : |fl (c (k + 1) * tmp)| ≤ 8 * (C * X ^ n) + 1 := by
          have h4 : |fl (c (k + 1) * tmp)| ≤ |fl (c (k + 1) * tmp) - c (k + 1) * x ^ (k + 1)| +
              |c (k + 1)| * |x| ^ (k + 1) := by
            have := abs_add_le (fl (c (k + 1) * tmp) - c (k + 1) * x ^ (k + 1)) (c (k + 1) * x ^ (k + 1))
            rwa [sub_add_cancel, abs_mul, abs_pow] at this
          have h5 := (w_pow hw (k := k + 1) (by omega)).2
          have h6 : (w ^ (k + 1) - 1) * (|c (k + 1)| * |x| ^ (k + 1)) ≤ 1 * (|c (k + 1)| * |x| ^ (k + 1)) :=
            mul_le_mul_of_nonneg_right (by linarith) (by positivity)
          have hw2 : w ≤ 2 := by rw [hw]; norm_num
          have h7 : η * (w * (C * (k * w ^ k * X ^ k)) + 1) ≤ 2 * (C * X ^ n) + 1 := by
            have h8 : w * (C * (η * (k * w ^ k * X ^ k))) ≤ 2 * (C * X ^ n) :=
              mul_le_mul hw2 (mul_le_mul_of_nonneg_left hηb (by linarith)) (by positivity) (by norm_num)
            have h9 : η ≤ 1 := hη1.trans (by norm_num)
            calc η * (w * (C * (k * w ^ k * X ^ k)) + 1) = w * (C * (η * (k * w ^ k * X ^ k))) + η := by ring
              _ ≤ _ := by linarith
          have hCX : 0 ≤ C * X ^ n := by positivity
          linarith
        refine (abs_add_le _ _).trans (le_trans ?_ hT)
        have hCX : 0 ≤ C * X ^ n := by positivity
        have hCX1 : 1 ≤ C * X ^ n := one_le_mul_of_one_le_of_one_le hC hXn
        norm_num at h2 ⊢
        linarith
      refine (step_error hfl hw hη hA hcomb hbig).trans ?_
      have h2 := mul_le_mul_of_nonneg_left (lost_step hw1 (by linarith : 0 ≤ C) hX k) hη0
      rw [show 2 * k + 1 + 1 = 2 * (k + 1) by ring]
      linarith
    rw [evalLoop]
    refine ih (k + 1 + 1) _ _ (by omega) (by omega) (fun h => ?_) (by simpa using hval)
    simp only [Nat.add_sub_cancel]
    have hb : |tmp * x| ≤ largest 53 1024 := by
      rw [abs_mul]
      have h2 : |tmp| ≤ |tmp - x ^ (k + 1)| + |x| ^ (k + 1) := by
        have := abs_add_le (tmp - x ^ (k + 1)) (x ^ (k + 1))
        rwa [sub_add_cancel, abs_pow] at this
      have h3 := mul_le_mul_of_nonneg_right (h2.trans (add_le_add_left ht _)) (abs_nonneg x)
      have h4 : |x| ^ (k + 1) * |x| ≤ X ^ n := by
        rw [← pow_succ]
        exact (pow_le_pow_left₀ (abs_nonneg _) hx _).trans (pow_le_pow_right₀ hX (by omega))
      have h5 : η * (k * w ^ k * X ^ k) * |x| ≤ η * (k * w ^ k * X ^ k) * X :=
        mul_le_mul_of_nonneg_left hx (by positivity)
      have h6 : (w ^ k - 1) * (|x| ^ (k + 1) * |x|) ≤ 1 * (|x| ^ (k + 1) * |x|) :=
        mul_le_mul_of_nonneg_right (by linarith) (by positivity)
      have h7 := hηx (by omega)
      have h8 : X ^ n ≤ C * X ^ n := le_mul_of_one_le_left (by positivity) hC
      refine le_trans ?_ hT
      norm_num
      linarith
    have h2 := step_error hfl hw hη (y := x ^ (k + 1 + 1)) (y' := tmp * x) (A := |x| ^ (k + 1 + 1))
      (B := X * (k * w ^ k * X ^ k)) (k := k) (by rw [abs_pow]) ?_ hb
    · refine h2.trans ?_
      have h3 := mul_le_mul_of_nonneg_left (power_step hw1 hX k) hη0
      linarith
    · rw [show tmp * x - x ^ (k + 1 + 1) = (tmp - x ^ (k + 1)) * x by ring, abs_mul]
      have h3 := mul_le_mul_of_nonneg_right ht (abs_nonneg x)
      have h4 : η * (k * w ^ k * X ^ k) * |x| ≤ η * (k * w ^ k * X ^ k) * X :=
        mul_le_mul_of_nonneg_left hx (by positivity)
      rw [pow_succ |x| (k + 1)]
      linarith

end
end Ecl.PolyFloat
