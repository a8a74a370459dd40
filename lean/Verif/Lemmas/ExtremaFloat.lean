import Verif.Model.ExtremaFloat
import Verif.Spec.Extrema
import Verif.Lemmas.Extrema
import Verif.Lemmas.PolynomialFloat

/-! # Extreme values and intersections with rounding -/
set_option autoImplicit false
set_option linter.unusedSimpArgs false

namespace Ecl.PolyFloat
open Ecl.Spec
open Ecl.Poly (Coeffs ofList Picks raise_picks lower_picks)

variable {fl : ℝ → ℝ}

/-- The bound of `eval_error`, for all points of an interval. -/
theorem eval_size (hfl : Rounds 53 fl) (n : ℕ) (c : Coeffs ℝ) {a b x : ℝ} (hx : x ∈ Set.Icc a b) :
    |eval fl n c x - Poly.eval n c x| ≤ ((1 + 1 / 2 ^ 53) ^ (2 * n) - 1) * size n c a b := by
  have h := eval_error hfl (by norm_num) (c := c) (c' := c) x (n := n) (k := 0) (by simp)
  rw [Poly.eval_eq_sum]
  refine h.trans ?_
  have hu : (0 : ℝ) ≤ (1 + 1 / 2 ^ 53) ^ (2 * n + 0) - 1 := by
    have : (1 : ℝ) ≤ (1 + 1 / 2 ^ 53) ^ (2 * n + 0) := one_le_pow₀ (by norm_num)
    linarith
  refine mul_le_mul_of_nonneg_left ?_ hu
  unfold size
  refine Finset.sum_le_sum fun i _ => mul_le_mul_of_nonneg_left ?_ (abs_nonneg _)
  exact pow_le_pow_left₀ (abs_nonneg x) (abs_le_max_abs_abs hx.1 hx.2) i

theorem size_nonneg (n : ℕ) (c : Coeffs ℝ) (a b : ℝ) : 0 ≤ size n c a b :=
  Finset.sum_nonneg fun _ _ => by positivity

theorem consider_spec {better : ℝ → ℝ → ℝ} {R : ℝ → ℝ → Prop} (hp : Picks better R) (p : Coeffs ℝ)
    (xb xe root best : ℝ) :
    R best (consider fl better p xb xe root best) ∧
    (root ∈ Set.Ioo xb xe → R (eval fl 3 p root) (consider fl better p xb xe root best)) ∧
    (consider fl better p xb xe root best = best ∨
      (root ∈ Set.Ioo xb xe ∧ consider fl better p xb xe root best = eval fl 3 p root)) := by
  unfold consider
  split
  next h =>
    refine ⟨hp.right _ _, fun _ => hp.left _ _, ?_⟩
    rcases hp.pick (eval fl 3 p root) best with h' | h'
    · exact Or.inr ⟨⟨h.1, h.2⟩, h'⟩
    · exact Or.inl h'
  next h => exact ⟨hp.refl _, fun h' => absurd ⟨h'.1, h'.2⟩ h, Or.inl rfl⟩

/-- What the extreme values of a cubic are, in terms of rounded values. -/
theorem cubicExtremum_spec (hfl : Rounds 53 fl) {better : ℝ → ℝ → ℝ} {R : ℝ → ℝ → Prop} (hp : Picks better R)
    (p : Coeffs ℝ) {xb xe : ℝ} (hle : xb ≤ xe) :
    R (eval fl 3 p xb) (cubicExtremum fl better xb xe p) ∧ R (eval fl 3 p xe) (cubicExtremum fl better xb xe p) ∧
    (p 3 = 0 → p 2 ≠ 0 → fl (-p 1 / (2 * p 2)) ∈ Set.Ioo xb xe →
      R (eval fl 3 p (fl (-p 1 / (2 * p 2)))) (cubicExtremum fl better xb xe p)) ∧
    ∃ x ∈ Set.Icc xb xe, eval fl 3 p x = cubicExtremum fl better xb xe p := by
  have hbest : ∃ x ∈ Set.Icc xb xe, eval fl 3 p x = better (eval fl 3 p xe) (eval fl 3 p xb) := by
    rcases hp.pick (eval fl 3 p xe) (eval fl 3 p xb) with h | h
    · exact ⟨xe, ⟨hle, le_refl _⟩, h.symm⟩
    · exact ⟨xb, ⟨le_refl _, hle⟩, h.symm⟩
  have step : ∀ (root best : ℝ), (∃ x ∈ Set.Icc xb xe, eval fl 3 p x = best) →
      ∃ x ∈ Set.Icc xb xe, eval fl 3 p x = consider fl better p xb xe root best := by
    intro root best h
    rcases (consider_spec (fl := fl) hp p xb xe root best).2.2 with h' | ⟨h1, h2⟩
    · rw [h']; exact h
    · exact ⟨root, ⟨h1.1.le, h1.2.le⟩, h2.symm⟩
  have hr := hp.right (eval fl 3 p xe) (eval fl 3 p xb)
  have hl := hp.left (eval fl 3 p xe) (eval fl 3 p xb)
  have h0 : fl 0 = 0 := hfl.self (isFloat_zero 53)
  unfold cubicExtremum
  simp only
  split
  next ha =>
    split
    next hb => exact ⟨hr, hl, fun _ h2 => absurd hb (mul_ne_zero two_ne_zero h2), hbest⟩
    next hb =>
      obtain ⟨c1, c2, c3⟩ := consider_spec (fl := fl) hp p xb xe (fl (-p 1 / (2 * p 2)))
        (better (eval fl 3 p xe) (eval fl 3 p xb))
      exact ⟨hp.trans _ _ _ hr c1, hp.trans _ _ _ hl c1, fun _ _ h => c2 h, step _ _ hbest⟩
  next ha =>
    have h3 : p 3 ≠ 0 := by
      intro h; apply ha; rw [h, mul_zero, h0]
    split
    next hd =>
      have c1 := (consider_spec (fl := fl) hp p xb xe
        (fl (fl (-(2 * p 2) + fl (Real.sqrt (discriminant fl (fl (3 * p 3)) (2 * p 2) (p 1)))) / (2 * fl (3 * p 3))))
        (better (eval fl 3 p xe) (eval fl 3 p xb))).1
      have c2 := (consider_spec (fl := fl) hp p xb xe
        (fl (fl (-(2 * p 2) - fl (Real.sqrt (discriminant fl (fl (3 * p 3)) (2 * p 2) (p 1)))) / (2 * fl (3 * p 3))))
        (consider fl better p xb xe
          (fl (fl (-(2 * p 2) + fl (Real.sqrt (discriminant fl (fl (3 * p 3)) (2 * p 2) (p 1)))) / (2 * fl (3 * p 3))))
          (better (eval fl 3 p xe) (eval fl 3 p xb)))).1
      exact ⟨hp.trans _ _ _ hr (hp.trans _ _ _ c1 c2), hp.trans _ _ _ hl (hp.trans _ _ _ c1 c2),
        fun h => absurd h h3, step _ _ (step _ _ hbest)⟩
    next hd => exact ⟨hr, hl, fun h => absurd h h3, hbest⟩

/-- The quotient of two differences. -/
theorem quotient_error (hfl : Rounds 53 fl) (n d : ℝ) (hd : d ≠ 0) :
    |fl (fl n / fl d) - n / d| ≤ 4 / 2 ^ 53 * |n / d| := by
  obtain ⟨e1, b1, h1⟩ := round_factor hfl (by norm_num) n
  obtain ⟨e2, b2, h2⟩ := round_factor hfl (by norm_num) d
  obtain ⟨e3, b3, h3⟩ := round_factor hfl (by norm_num) (fl n / fl d)
  rw [abs_le] at b1 b2 b3
  have hu : (1 : ℝ) / 2 ^ 53 ≤ 1 / 1000 := by norm_num
  have h4 : (4 : ℝ) / 2 ^ 53 = 4 * (1 / 2 ^ 53) := by ring
  rw [h3, h1, h2, h4]
  generalize (1 : ℝ) / 2 ^ 53 = u at *
  have hpos : 0 < 1 + e2 := by linarith
  have e : n * (1 + e1) / (d * (1 + e2)) * (1 + e3) - n / d =
      (((1 + e1) * (1 + e3) - (1 + e2)) / (1 + e2)) * (n / d) := by
    field_simp
  rw [e, abs_mul]
  refine mul_le_mul_of_nonneg_right ?_ (abs_nonneg _)
  rw [abs_div, abs_of_pos hpos, div_le_iff₀ hpos, abs_le]
  constructor <;> nlinarith

end Ecl.PolyFloat
