import Verif.Lemmas.TensionBound
import Mathlib.Analysis.Complex.ExponentialBounds

/-! # Bounds of `sinh` and `cosh` near zero -/
set_option autoImplicit false

namespace Ecl.TensionSpline
open Set

theorem le_of_deriv_le {f g f' g' : ℝ → ℝ} {b : ℝ} (hf : ∀ x, HasDerivAt f (f' x) x) (hg : ∀ x, HasDerivAt g (g' x) x)
    (h0 : f 0 ≤ g 0) (h : ∀ x, 0 ≤ x → x ≤ b → f' x ≤ g' x) {x : ℝ} (hx : 0 ≤ x) (hb : x ≤ b) : f x ≤ g x := by
  have hd : ∀ x, HasDerivAt (fun x => g x - f x) (g' x - f' x) x := fun x => (hg x).sub (hf x)
  have hm : MonotoneOn (fun x => g x - f x) (Icc 0 b) := by
    apply monotoneOn_of_deriv_nonneg (convex_Icc 0 b)
    · exact fun x _ => (hd x).continuousAt.continuousWithinAt
    · exact fun x _ => (hd x).differentiableAt.differentiableWithinAt
    · intro y hy
      rw [interior_Icc] at hy
      rw [(hd y).deriv]
      linarith [h y hy.1.le hy.2.le]
  have := hm (left_mem_Icc.2 (hx.trans hb)) ⟨hx, hb⟩ hx
  simp only at this
  linarith

theorem cosh_le_two {x : ℝ} (h0 : 0 ≤ x) (h1 : x ≤ 1) : Real.cosh x ≤ 8 / 5 := by
  have e : Real.cosh x ≤ Real.cosh 1 := Real.cosh_le_cosh.2 (by rw [abs_of_nonneg h0, abs_of_nonneg (by norm_num)]; exact h1)
  refine e.trans ?_
  rw [Real.cosh_eq]
  have a := Real.exp_one_lt_d9
  have b : Real.exp (-1) ≤ 2 / 5 := by
    rw [Real.exp_neg, inv_le_comm₀ (Real.exp_pos _) (by norm_num)]
    linarith [Real.exp_one_gt_d9]
  linarith

theorem sinh_ge {x : ℝ} (h0 : 0 ≤ x) : x ≤ Real.sinh x := Real.self_le_sinh_iff.2 h0

theorem sinh_le1 {x : ℝ} (h0 : 0 ≤ x) (h1 : x ≤ 1) : Real.sinh x ≤ 8 / 5 * x := by
  refine le_of_deriv_le (b := 1) (f' := Real.cosh) (g' := fun _ => 8 / 5) Real.hasDerivAt_sinh (fun y => ?_) (by simp)
    (fun y a b => cosh_le_two a b) h0 h1
  simpa using (hasDerivAt_id y).const_mul (8 / 5 : ℝ)

theorem cosh_le {x : ℝ} (h0 : 0 ≤ x) (h1 : x ≤ 1) : Real.cosh x ≤ 1 + 4 / 5 * x ^ 2 := by
  refine le_of_deriv_le (b := 1) (g := fun x => 1 + 4 / 5 * x ^ 2) (f' := Real.sinh) (g' := fun y => 8 / 5 * y) Real.hasDerivAt_cosh (fun y => ?_) (by simp)
    (fun y a b => sinh_le1 a b) h0 h1
  have := ((hasDerivAt_pow 2 y).const_mul (4 / 5 : ℝ)).const_add 1
  refine this.congr_deriv (by simp; ring)

theorem sinh_le3 {x : ℝ} (h0 : 0 ≤ x) (h1 : x ≤ 1) : Real.sinh x ≤ x + 4 / 15 * x ^ 3 := by
  refine le_of_deriv_le (b := 1) (g := fun x => x + 4 / 15 * x ^ 3) (f' := Real.cosh) (g' := fun y => 1 + 4 / 5 * y ^ 2) Real.hasDerivAt_sinh (fun y => ?_) (by simp)
    (fun y a b => cosh_le a b) h0 h1
  have := (hasDerivAt_id y).add ((hasDerivAt_pow 3 y).const_mul (4 / 15 : ℝ))
  refine this.congr_deriv (by simp; ring)

theorem cosh_ge {x : ℝ} (h0 : 0 ≤ x) : 1 + x ^ 2 / 2 ≤ Real.cosh x := by
  refine le_of_deriv_le (b := x) (f := fun y => 1 + y ^ 2 / 2) (f' := fun y => y) (g' := Real.sinh) (fun y => ?_)
    Real.hasDerivAt_cosh (by simp) (fun y a b => sinh_ge a) h0 le_rfl
  have := ((hasDerivAt_pow 2 y).div_const (2 : ℝ)).const_add 1
  refine this.congr_deriv (by simp)

theorem sinh_ge3 {x : ℝ} (h0 : 0 ≤ x) : x + x ^ 3 / 6 ≤ Real.sinh x := by
  refine le_of_deriv_le (b := x) (f := fun y => y + y ^ 3 / 6) (f' := fun y => 1 + y ^ 2 / 2) (g' := Real.cosh) (fun y => ?_)
    Real.hasDerivAt_sinh (by simp) (fun y a b => cosh_ge a) h0 le_rfl
  have := (hasDerivAt_id y).add ((hasDerivAt_pow 3 y).div_const (6 : ℝ))
  refine this.congr_deriv (by simp; ring)

theorem cosh_le4 {x : ℝ} (h0 : 0 ≤ x) (h1 : x ≤ 1) : Real.cosh x ≤ 1 + x ^ 2 / 2 + x ^ 4 / 15 := by
  refine le_of_deriv_le (b := 1) (g := fun x => 1 + x ^ 2 / 2 + x ^ 4 / 15) (f' := Real.sinh) (g' := fun y => y + 4 / 15 * y ^ 3)
    Real.hasDerivAt_cosh (fun y => ?_) (by simp) (fun y a b => sinh_le3 a b) h0 h1
  have := (((hasDerivAt_pow 2 y).div_const (2 : ℝ)).const_add 1).add ((hasDerivAt_pow 4 y).div_const (15 : ℝ))
  refine this.congr_deriv (by simp; ring)

theorem sinh_le5 {x : ℝ} (h0 : 0 ≤ x) (h1 : x ≤ 1) : Real.sinh x ≤ x + x ^ 3 / 6 + x ^ 5 / 75 := by
  refine le_of_deriv_le (b := 1) (g := fun x => x + x ^ 3 / 6 + x ^ 5 / 75) (f' := Real.cosh) (g' := fun y => 1 + y ^ 2 / 2 + y ^ 4 / 15)
    Real.hasDerivAt_sinh (fun y => ?_) (by simp) (fun y a b => cosh_le4 a b) h0 h1
  have := ((hasDerivAt_id y).add ((hasDerivAt_pow 3 y).div_const (6 : ℝ))).add ((hasDerivAt_pow 5 y).div_const (75 : ℝ))
  refine this.congr_deriv (by simp; ring)

/-- The off-diagonal entry of a low tension. -/
theorem alpha_low {w : ℝ} (h0 : 0 < w) (h1 : w ≤ 1) :
    0 ≤ 1 / 6 - (Real.sinh w - w) / (w ^ 2 * Real.sinh w) ∧
    1 / 6 - (Real.sinh w - w) / (w ^ 2 * Real.sinh w) ≤ w ^ 2 / 36 := by
  have a := sinh_ge3 h0.le
  have b := sinh_le5 h0.le h1
  have c := sinh_ge h0.le
  generalize Real.sinh w = s at *
  have s0 : 0 < s := by linarith
  have w2 : w ^ 2 ≤ 1 := by nlinarith
  have d : 1 / 6 - (s - w) / (w ^ 2 * s) = (s * (w ^ 2 - 6) + 6 * w) / (6 * (w ^ 2 * s)) := by field_simp; ring
  rw [d]
  have p : 0 < 6 * (w ^ 2 * s) := by positivity
  constructor
  · apply div_nonneg _ p.le
    have h : (w + w ^ 3 / 6 + w ^ 5 / 75) * (w ^ 2 - 6) ≤ s * (w ^ 2 - 6) := mul_le_mul_of_nonpos_right b (by linarith)
    have h5 : 0 ≤ w ^ 5 := by positivity
    have h7 : 0 ≤ w ^ 7 := by positivity
    nlinarith
  · rw [div_le_iff₀ p]
    have h : s * (w ^ 2 - 6) ≤ (w + w ^ 3 / 6) * (w ^ 2 - 6) := mul_le_mul_of_nonpos_right a (by linarith)
    have h4 : w ^ 4 * w ≤ w ^ 4 * s := mul_le_mul_of_nonneg_left c (by positivity)
    nlinarith

/-- The diagonal entry of a low tension. -/
theorem beta_low {w : ℝ} (h0 : 0 < w) (h1 : w ≤ 1) :
    |1 / 3 - (w * Real.cosh w - Real.sinh w) / (w ^ 2 * Real.sinh w)| ≤ 3 / 40 * w ^ 2 := by
  have a := sinh_ge3 h0.le
  have b := sinh_le5 h0.le h1
  have c := sinh_ge h0.le
  have e := cosh_ge h0.le
  have f := cosh_le4 h0.le h1
  generalize Real.sinh w = s at *
  generalize Real.cosh w = k at *
  have s0 : 0 < s := by linarith
  have w2 : w ^ 2 ≤ 1 := by nlinarith
  have d : 1 / 3 - (w * k - s) / (w ^ 2 * s) = (s * (w ^ 2 + 3) - 3 * (w * k)) / (3 * (w ^ 2 * s)) := by field_simp; ring
  rw [d]
  have p : 0 < 3 * (w ^ 2 * s) := by positivity
  have h4 : w ^ 4 * w ≤ w ^ 4 * s := mul_le_mul_of_nonneg_left c (by positivity)
  have h5 : 0 ≤ w ^ 5 := by positivity
  rw [abs_le]
  constructor
  · rw [le_div_iff₀ p]
    have h : (w + w ^ 3 / 6) * (w ^ 2 + 3) ≤ s * (w ^ 2 + 3) := mul_le_mul_of_nonneg_right a (by positivity)
    have g : w * k ≤ w * (1 + w ^ 2 / 2 + w ^ 4 / 15) := mul_le_mul_of_nonneg_left f h0.le
    nlinarith
  · rw [div_le_iff₀ p]
    have h : s * (w ^ 2 + 3) ≤ (w + w ^ 3 / 6 + w ^ 5 / 75) * (w ^ 2 + 3) := mul_le_mul_of_nonneg_right b (by positivity)
    have g : w * (1 + w ^ 2 / 2) ≤ w * k := mul_le_mul_of_nonneg_left e h0.le
    have h7 : w ^ 5 * w ^ 2 ≤ w ^ 5 * 1 := mul_le_mul_of_nonneg_left w2 h5
    nlinarith

theorem a_low {tau h : ℝ} (ht : 0 < tau) (hh : 0 < h) (h1 : tau * h ≤ 1) :
    ∃ d, 1 / h - tau / Real.sinh (tau * h) = tau ^ 2 * (h / 6 - h * d) ∧ 0 ≤ d ∧ d ≤ (tau * h) ^ 2 / 36 := by
  have w0 : 0 < tau * h := mul_pos ht hh
  obtain ⟨p, q⟩ := alpha_low w0 h1
  have s0 := Real.sinh_pos_iff.2 w0
  refine ⟨_, ?_, p, q⟩
  field_simp
  ring

theorem b_low {tau h : ℝ} (ht : 0 < tau) (hh : 0 < h) (h1 : tau * h ≤ 1) :
    ∃ d, tau * (Real.cosh (tau * h) / Real.sinh (tau * h)) - 1 / h = tau ^ 2 * (h / 3 - h * d) ∧ |d| ≤ 3 / 40 * (tau * h) ^ 2 := by
  have w0 : 0 < tau * h := mul_pos ht hh
  have s0 := Real.sinh_pos_iff.2 w0
  refine ⟨_, ?_, beta_low w0 h1⟩
  field_simp
  ring

/-- Solutions of a system with a dominant diagonal. -/
theorem dominated {a b e r c : ℕ → ℝ} {m : ℕ} {R : ℝ} (e0 : e 0 = 0) (en : e (m + 2) = 0)
    (ha : ∀ i, i < m + 2 → 0 ≤ a i) (hc : ∀ i, i < m + 2 → 0 < c i ∧ c i ≤ b i - a i)
    (row : ∀ i, i < m + 1 → a i * e i + (b i + b (i + 1)) * e (i + 1) + a (i + 1) * e (i + 2) = r i)
    (hr : ∀ i, i < m + 1 → |r i| ≤ (c i + c (i + 1)) * R) : ∀ k, k ≤ m + 2 → |e k| ≤ R := by
  obtain ⟨i, hi, hmax⟩ := exists_peak e m e0 en
  intro k hk
  refine (hmax k hk).trans ?_
  have m0 := hmax i (by omega)
  have m2 := hmax (i + 2) (by omega)
  have c0 := hc i (by omega)
  have c1 := hc (i + 1) (by omega)
  have a0 := ha i (by omega)
  have a1 := ha (i + 1) (by omega)
  have hr' := hr i hi
  have t1 : |(b i + b (i + 1)) * e (i + 1)| ≤ |r i| + |a i * e i| + |a (i + 1) * e (i + 2)| := by
    have : (b i + b (i + 1)) * e (i + 1) = r i - a i * e i - a (i + 1) * e (i + 2) := by rw [← row i hi]; ring
    rw [this]
    exact (abs_sub _ _).trans (add_le_add_left (abs_sub _ _) _)
  rw [abs_mul, abs_mul, abs_mul, abs_of_nonneg a0, abs_of_nonneg a1, abs_of_pos (show 0 < b i + b (i + 1) by linarith [c0.1, c0.2, c1.1, c1.2])] at t1
  have g0 := mul_le_mul_of_nonneg_left m0 a0
  have g1 := mul_le_mul_of_nonneg_left m2 a1
  have g2 : (c i + c (i + 1)) * |e (i + 1)| ≤ (b i - a i + (b (i + 1) - a (i + 1))) * |e (i + 1)| :=
    mul_le_mul_of_nonneg_right (by linarith [c0.2, c1.2]) (abs_nonneg _)
  have : (c i + c (i + 1)) * |e (i + 1)| ≤ (c i + c (i + 1)) * R := by nlinarith
  exact le_of_mul_le_mul_left this (by linarith [c0.1, c1.1])

end Ecl.TensionSpline
