import Verif.Model.PolynomialFloat
import Verif.Lemmas.Polynomial
import Verif.Lemmas.Rounding
import Mathlib.Tactic.LinearCombination

/-! # Errors of polynomials with rounding -/
set_option autoImplicit false
set_option linter.unusedSimpArgs false

namespace Ecl.PolyFloat
open Ecl.Spec
open Ecl.Poly (Coeffs ofList)

/-- One more rounding. -/
theorem round_step {p : ℕ} {fl : ℝ → ℝ} (hfl : Rounds p fl) (hp : 1 ≤ p) {a b A B : ℝ} (hb : |b| ≤ B)
    (h : |a - b| ≤ (A - 1) * B) : |fl a - b| ≤ (A * (1 + 1 / 2 ^ p) - 1) * B := by
  have h1 := hfl.relative hp a
  have h2 : |a| ≤ A * B := by
    have := abs_sub_abs_le_abs_sub a b
    linarith
  have h3 : |fl a - b| ≤ |fl a - a| + |a - b| := abs_sub_le _ _ _
  have h4 : |a| / 2 ^ p ≤ A * B * (1 / 2 ^ p) := by
    rw [div_eq_mul_one_div]
    exact mul_le_mul_of_nonneg_right h2 (by positivity)
  linarith

/-- A product of two numbers with errors. -/
theorem mul_step {a a' b b' A B : ℝ} (hA : 1 ≤ A) (ha : |a' - a| ≤ (A - 1) * |a|)
    (hb : |b' - b| ≤ (B - 1) * |b|) : |a' * b' - a * b| ≤ (A * B - 1) * (|a| * |b|) := by
  have e : a' * b' - a * b = (a' - a) * b + a' * (b' - b) := by ring
  have h1 : |a'| ≤ A * |a| := by
    have := abs_sub_abs_le_abs_sub a' a
    linarith
  have h2 : |a' * b' - a * b| ≤ |a' - a| * |b| + |a'| * |b' - b| := by
    rw [e]
    refine (abs_add_le _ _).trans ?_
    rw [abs_mul, abs_mul]
  have h3 : |a' - a| * |b| ≤ (A - 1) * |a| * |b| := mul_le_mul_of_nonneg_right ha (abs_nonneg b)
  have h4 : |a'| * |b' - b| ≤ A * |a| * ((B - 1) * |b|) :=
    mul_le_mul h1 hb (abs_nonneg _) (by have := abs_nonneg a; positivity)
  nlinarith

/-- The loop, from powers and partial sums with errors. -/
theorem evalLoop_error {p : ℕ} {fl : ℝ → ℝ} (hfl : Rounds p fl) (hp : 1 ≤ p) {c c' : Coeffs ℝ} {x : ℝ} {n k : ℕ}
    (hc : ∀ i ≤ n, |c' i - c i| ≤ ((1 + 1 / 2 ^ p) ^ k - 1) * |c i|) : ∀ (left i : ℕ) (tmp value : ℝ),
    i + 1 + left = n + 1 →
    |tmp - x ^ (i + 1)| ≤ ((1 + 1 / 2 ^ p : ℝ) ^ i - 1) * |x ^ (i + 1)| →
    |value - ∑ j ∈ Finset.range (i + 1), c j * x ^ j| ≤
      ((1 + 1 / 2 ^ p) ^ (2 * i + k) - 1) * ∑ j ∈ Finset.range (i + 1), |c j| * |x| ^ j →
    |evalLoop fl c' x left (i + 1) tmp value - ∑ j ∈ Finset.range (n + 1), c j * x ^ j| ≤
      ((1 + 1 / 2 ^ p) ^ (2 * n + k) - 1) * ∑ j ∈ Finset.range (n + 1), |c j| * |x| ^ j := by
  have hu : (1 : ℝ) ≤ 1 + 1 / 2 ^ p := by
    have : (0 : ℝ) < 1 / 2 ^ p := by positivity
    linarith
  intro left
  induction left with
  | zero =>
    intro i tmp value hi _ hv
    have : i = n := by omega
    subst this
    exact hv
  | succ left ih =>
    intro i tmp value hi ht hv
    unfold evalLoop
    refine ih (i + 1) _ _ (by omega) ?_ ?_
    · rw [pow_succ (1 + 1 / 2 ^ p : ℝ) i]
      refine round_step hfl hp le_rfl ?_
      have := mul_step (one_le_pow₀ hu) ht (a := x ^ (i + 1)) (b := x) (b' := x) (B := 1) (by simp)
      rw [mul_one, ← abs_mul, ← pow_succ] at this
      exact this
    · -- the term
      have t1 := mul_step (one_le_pow₀ hu) (hc (i + 1) (by omega)) ht
      rw [← pow_add] at t1
      have t2 := round_step hfl hp (b := c (i + 1) * x ^ (i + 1)) (by rw [abs_mul]) t1
      rw [← pow_succ] at t2
      have hm : (1 + 1 / 2 ^ p : ℝ) ^ (k + i + 1) ≤ (1 + 1 / 2 ^ p) ^ (2 * i + 1 + k) :=
        pow_le_pow_right₀ hu (by omega)
      have hm2 : (1 + 1 / 2 ^ p : ℝ) ^ (2 * i + k) ≤ (1 + 1 / 2 ^ p) ^ (2 * i + 1 + k) :=
        pow_le_pow_right₀ hu (by omega)
      have e2 : 2 * (i + 1) + k = 2 * i + 1 + k + 1 := by ring
      rw [e2, pow_succ (1 + 1 / 2 ^ p : ℝ) (2 * i + 1 + k), Finset.sum_range_succ _ (i + 1),
        Finset.sum_range_succ _ (i + 1)]
      set T := ∑ j ∈ Finset.range (i + 1), |c j| * |x| ^ j with hT
      set S := ∑ j ∈ Finset.range (i + 1), c j * x ^ j with hS
      have hTn : 0 ≤ T := Finset.sum_nonneg fun j _ => by positivity
      have hST : |S| ≤ T := by
        refine (Finset.abs_sum_le_sum_abs _ _).trans (le_of_eq ?_)
        refine Finset.sum_congr rfl fun j _ => ?_
        rw [abs_mul, abs_pow]
      have hP : 0 ≤ |c (i + 1)| * |x| ^ (i + 1) := by positivity
      refine round_step hfl hp ?_ ?_
      · refine (abs_add_le _ _).trans ?_
        rw [abs_mul, abs_pow]
        linarith
      · have e : value + fl (c' (i + 1) * tmp) - (S + c (i + 1) * x ^ (i + 1)) =
          (value - S) + (fl (c' (i + 1) * tmp) - c (i + 1) * x ^ (i + 1)) := by ring
        rw [e]
        refine (abs_add_le _ _).trans ?_
        rw [abs_pow] at t2
        have q1 := mul_le_mul_of_nonneg_right (sub_le_sub_right hm 1) hP
        have q2 := mul_le_mul_of_nonneg_right (sub_le_sub_right hm2 1) hTn
        linarith

theorem eval_error {p : ℕ} {fl : ℝ → ℝ} (hfl : Rounds p fl) (hp : 1 ≤ p) {c c' : Coeffs ℝ} (x : ℝ) {n k : ℕ}
    (hc : ∀ i ≤ n, |c' i - c i| ≤ ((1 + 1 / 2 ^ p) ^ k - 1) * |c i|) :
    |eval fl n c' x - ∑ j ∈ Finset.range (n + 1), c j * x ^ j| ≤
      ((1 + 1 / 2 ^ p) ^ (2 * n + k) - 1) * ∑ j ∈ Finset.range (n + 1), |c j| * |x| ^ j := by
  unfold eval
  have := evalLoop_error hfl hp hc (x := x) n 0 x (c' 0) (by omega) (by simp) (by
    simpa using hc 0 (by omega))
  simpa using this

/-! ## Quadratics -/

/-- The discriminant. -/
theorem discriminant_error {p : ℕ} {fl : ℝ → ℝ} (hfl : Rounds p fl) (hp : 1 ≤ p) (a b c : ℝ) :
    |discriminant fl a b c - (b ^ 2 - 4 * a * c)| ≤ ((1 + 1 / 2 ^ p) ^ 2 - 1) * (b ^ 2 + 4 * |a * c|) := by
  unfold discriminant
  rw [pow_two (1 + 1 / 2 ^ p : ℝ)]
  have h4 : |4 * a * c| = 4 * |a * c| := by rw [mul_assoc, abs_mul]; norm_num
  have hb : |b * b| = b ^ 2 := by rw [abs_mul_self, pow_two]
  refine round_step hfl hp ?_ ?_
  · refine (abs_sub _ _).trans ?_
    rw [h4, abs_of_nonneg (sq_nonneg b)]
  · have h1 := hfl.relative hp (b * b)
    have h2 := hfl.relative hp (4 * a * c)
    rw [h4] at h2
    rw [hb] at h1
    have e : fl (b * b) - fl (4 * a * c) - (b ^ 2 - 4 * a * c) = (fl (b * b) - b * b) - (fl (4 * a * c) - 4 * a * c) := by
      ring
    rw [e]
    refine (abs_sub _ _).trans ((add_le_add h1 h2).trans (le_of_eq ?_))
    ring

theorem discriminant_le {p : ℕ} {fl : ℝ → ℝ} (hfl : Rounds p fl) (hp : 1 ≤ p) (a b c : ℝ) :
    |discriminant fl a b c| ≤ (1 + 1 / 2 ^ p) ^ 2 * (b ^ 2 + 4 * |a * c|) := by
  have h := discriminant_error hfl hp a b c
  have h1 := abs_sub_abs_le_abs_sub (discriminant fl a b c) (b ^ 2 - 4 * a * c)
  have h4 : |4 * a * c| = 4 * |a * c| := by rw [mul_assoc, abs_mul]; norm_num
  have h2 : |b ^ 2 - 4 * a * c| ≤ b ^ 2 + 4 * |a * c| := by
    refine (abs_sub _ _).trans ?_
    rw [h4, abs_of_nonneg (sq_nonneg b)]
  linarith

/-- A number known up to a factor. -/
theorem exists_factor {x y e : ℝ} (h : |y - x| ≤ e * |x|) : ∃ d : ℝ, |d| ≤ e ⊔ 0 ∧ y = x * (1 + d) := by
  by_cases hx : x = 0
  · subst hx
    refine ⟨0, by simp, ?_⟩
    have : |y - 0| ≤ 0 := by simpa using h
    have := abs_nonpos_iff.1 this
    linarith
  · refine ⟨(y - x) / x, ?_, ?_⟩
    · rw [abs_div]
      exact ((div_le_iff₀ (abs_pos.2 hx)).2 h).trans le_sup_left
    · field_simp
      ring

theorem round_factor {p : ℕ} {fl : ℝ → ℝ} (hfl : Rounds p fl) (hp : 1 ≤ p) (x : ℝ) :
    ∃ d : ℝ, |d| ≤ 1 / 2 ^ p ∧ fl x = x * (1 + d) := by
  have h := hfl.relative hp x
  obtain ⟨d, hd, e⟩ := exists_factor (x := x) (y := fl x) (e := 1 / 2 ^ p) (by
    rw [one_div_mul_eq_div]
    exact h)
  refine ⟨d, ?_, e⟩
  rwa [max_eq_left (by positivity)] at hd

theorem two_factors {d e u : ℝ} (hd : |d| ≤ u) (he : |e| ≤ u) : |(1 + d) * (1 + e) - 1| ≤ 2 * u + u ^ 2 := by
  have e1 : (1 + d) * (1 + e) - 1 = d + e + d * e := by ring
  have h1 : |d * e| ≤ u ^ 2 := by
    rw [abs_mul, pow_two]
    exact mul_le_mul hd he (abs_nonneg _) ((abs_nonneg _).trans hd)
  rw [e1]
  have := abs_add_le (d + e) (d * e)
  have := abs_add_le d e
  linarith

/-- What is left of the polynomial at a number close to `(-b + s) / 2a`. -/
theorem residual {a b c s g u M : ℝ} (hu0 : 0 ≤ u) (hu : u ≤ 1 / 100) (hbM : b ^ 2 ≤ M)
    (hs : |s ^ 2 - (b ^ 2 - 4 * a * c)| ≤ ((1 + u) ^ 4 - 1) * M) (hs2 : s ^ 2 ≤ (1 + u) ^ 4 * M)
    (hg : |g| ≤ 2 * u + u ^ 2) :
    |((-b + s) * (1 + g)) ^ 2 + 2 * b * ((-b + s) * (1 + g)) + 4 * a * c| ≤ 13 * u * M := by
  have hM : 0 ≤ M := (sq_nonneg b).trans hbM
  set R := Real.sqrt M with hR
  have hR0 : 0 ≤ R := Real.sqrt_nonneg M
  have hRM : R ^ 2 = M := Real.sq_sqrt hM
  have hb' : |b| ≤ R := Real.abs_le_sqrt hbM
  have hs' : |s| ≤ (1 + u) ^ 2 * R := by
    refine abs_le_of_sq_le_sq' ?_ (by positivity) |> abs_le.2
    rw [mul_pow, hRM, ← pow_mul]
    exact hs2
  have ht : |-b + s| ≤ (1 + (1 + u) ^ 2) * R := by
    refine (abs_add_le _ _).trans ?_
    rw [abs_neg]
    linarith
  set B := 2 * u + u ^ 2 with hB
  have hB0 : 0 ≤ B := by positivity
  have hB1 : (1 + u) ^ 2 = 1 + B := by rw [hB]; ring
  have hB2 : (1 + u) ^ 4 = (1 + B) ^ 2 := by rw [← hB1]; ring
  have hBu : B ≤ 2.01 * u := by rw [hB]; nlinarith
  rw [hB1] at hs' ht
  rw [hB2] at hs
  have h1 : |2 * s * (g * (-b + s))| ≤ 2 * ((1 + B) * R) * (B * ((1 + (1 + B)) * R)) := by
    rw [abs_mul, abs_mul, abs_mul]
    have : |(2 : ℝ)| = 2 := by norm_num
    rw [this]
    gcongr
  have h2 : (g * (-b + s)) ^ 2 ≤ (B * ((1 + (1 + B)) * R)) ^ 2 := by
    refine sq_le_sq' ?_ ?_
    · have := neg_abs_le (g * (-b + s))
      have h : |g * (-b + s)| ≤ B * ((1 + (1 + B)) * R) := by
        rw [abs_mul]
        gcongr
      linarith
    · refine (le_abs_self _).trans ?_
      rw [abs_mul]
      gcongr
  have e : ((-b + s) * (1 + g)) ^ 2 + 2 * b * ((-b + s) * (1 + g)) + 4 * a * c =
    (s ^ 2 - (b ^ 2 - 4 * a * c)) + 2 * s * (g * (-b + s)) + (g * (-b + s)) ^ 2 := by ring
  rw [e]
  have h3 := abs_add_le (s ^ 2 - (b ^ 2 - 4 * a * c) + 2 * s * (g * (-b + s))) ((g * (-b + s)) ^ 2)
  have h4 := abs_add_le (s ^ 2 - (b ^ 2 - 4 * a * c)) (2 * s * (g * (-b + s)))
  rw [abs_of_nonneg (sq_nonneg (g * (-b + s)))] at h3
  have key : ((1 + B) ^ 2 - 1) + 2 * (1 + B) * (B * (1 + (1 + B))) + (B * (1 + (1 + B))) ^ 2 ≤ 13 * u := by
    have e1 : ((1 + B) ^ 2 - 1) + 2 * (1 + B) * (B * (1 + (1 + B))) + (B * (1 + (1 + B))) ^ 2 =
      B * (6 + 11 * B + 6 * B ^ 2 + B ^ 3) := by ring
    have hB3 : B ≤ 0.0201 := by linarith
    have hc : 6 + 11 * B + 6 * B ^ 2 + B ^ 3 ≤ 6.3 := by
      have : B ^ 2 ≤ 0.0201 * B := by nlinarith
      have : B ^ 3 ≤ 0.0201 * B := by nlinarith [sq_nonneg B]
      linarith
    rw [e1]
    calc _ ≤ B * 6.3 := mul_le_mul_of_nonneg_left hc hB0
      _ ≤ 2.01 * u * 6.3 := by linarith
      _ ≤ 13 * u := by linarith
  have := mul_le_mul_of_nonneg_right key hM
  rw [← hRM] at this hs ⊢
  nlinarith

/-- The square root. -/
theorem sqrt_sq_error {p : ℕ} {fl : ℝ → ℝ} (hfl : Rounds p fl) (hp : 1 ≤ p) {a b c : ℝ}
    (h : 0 ≤ discriminant fl a b c) :
    |fl (Real.sqrt (discriminant fl a b c)) ^ 2 - (b ^ 2 - 4 * a * c)| ≤
        ((1 + 1 / 2 ^ p) ^ 4 - 1) * (b ^ 2 + 4 * |a * c|) ∧
      fl (Real.sqrt (discriminant fl a b c)) ^ 2 ≤ (1 + 1 / 2 ^ p) ^ 4 * (b ^ 2 + 4 * |a * c|) := by
  have hd := discriminant_error hfl hp a b c
  have hd2 := discriminant_le hfl hp a b c
  set D := discriminant fl a b c
  set M := b ^ 2 + 4 * |a * c| with hM
  have hM0 : 0 ≤ M := by positivity
  obtain ⟨d, hd', e⟩ := round_factor hfl hp (Real.sqrt D)
  have e2 : fl (Real.sqrt D) ^ 2 = D * (1 + d) ^ 2 := by rw [e, mul_pow, Real.sq_sqrt h]
  rw [e2]
  rw [abs_of_nonneg h] at hd2
  set u : ℝ := 1 / 2 ^ p with hu
  have h1 : |(1 + d) ^ 2 - 1| ≤ 2 * u + u ^ 2 := by
    rw [pow_two]
    exact two_factors hd' hd'
  have h2 : |D * (1 + d) ^ 2 - D| ≤ (2 * u + u ^ 2) * ((1 + u) ^ 2 * M) := by
    have : D * (1 + d) ^ 2 - D = ((1 + d) ^ 2 - 1) * D := by ring
    rw [this, abs_mul, abs_of_nonneg h]
    exact mul_le_mul h1 hd2 h ((abs_nonneg _).trans h1)
  constructor
  · have := abs_sub_le (D * (1 + d) ^ 2) D (b ^ 2 - 4 * a * c)
    have e3 : ((1 + u) ^ 4 - 1) * M = (2 * u + u ^ 2) * ((1 + u) ^ 2 * M) + ((1 + u) ^ 2 - 1) * M := by ring
    linarith
  · have := le_abs_self (D * (1 + d) ^ 2 - D)
    have e3 : (1 + u) ^ 4 * M = (2 * u + u ^ 2) * ((1 + u) ^ 2 * M) + (1 + u) ^ 2 * M := by ring
    linarith

theorem quotient_value {a b c T : ℝ} (ha : a ≠ 0) (r : ℝ) (hr : r = T / (2 * a)) :
    a * r ^ 2 + b * r + c = (T ^ 2 + 2 * b * T + 4 * a * c) / (4 * a) := by
  subst hr
  field_simp
  ring

/-- Both roots. -/
theorem root_residual {p : ℕ} {fl : ℝ → ℝ} (hfl : Rounds p fl) (hp : 7 ≤ p) {a b c s : ℝ} (ha : a ≠ 0)
    (hs : |s ^ 2 - (b ^ 2 - 4 * a * c)| ≤ ((1 + 1 / 2 ^ p) ^ 4 - 1) * (b ^ 2 + 4 * |a * c|))
    (hs2 : s ^ 2 ≤ (1 + 1 / 2 ^ p) ^ 4 * (b ^ 2 + 4 * |a * c|)) {r g : ℝ} (hg : |g| ≤ 2 * (1 / 2 ^ p) + (1 / 2 ^ p) ^ 2)
    (hr : r = (-b + s) * (1 + g) / (2 * a)) :
    |a * r ^ 2 + b * r + c| ≤ 4 * (b ^ 2 / |a| + 4 * |c|) / 2 ^ p := by
  have hu : (1 : ℝ) / 2 ^ p ≤ 1 / 100 := by
    have : (2 : ℝ) ^ 7 ≤ 2 ^ p := pow_le_pow_right₀ (by norm_num) hp
    exact one_div_le_one_div_of_le (by norm_num) (by norm_num at this ⊢; linarith)
  have hu0 : (0 : ℝ) ≤ 1 / 2 ^ p := by positivity
  have h := residual hu0 hu (M := b ^ 2 + 4 * |a * c|) (by have := abs_nonneg (a * c); linarith) hs hs2 hg
  rw [quotient_value ha r hr, abs_div]
  have h4 : |4 * a| = 4 * |a| := by rw [abs_mul]; norm_num
  have hpos := abs_pos.2 ha
  rw [h4, div_le_iff₀ (by positivity)]
  refine h.trans ?_
  have e : 4 * (b ^ 2 / |a| + 4 * |c|) / 2 ^ p * (4 * |a|) = 16 * (1 / 2 ^ p) * (b ^ 2 + 4 * (|a| * |c|)) := by
    field_simp
    ring
  rw [e, abs_mul]
  have : 0 ≤ (1 / 2 ^ p) * (b ^ 2 + 4 * (|a| * |c|)) := by positivity
  linarith

theorem quadratic_residual {p : ℕ} {fl : ℝ → ℝ} (hfl : Rounds p fl) (hp : 7 ≤ p) {q : Coeffs ℝ} (ha : q 2 ≠ 0) {r : ℝ}
    (hr : r ∈ quadraticRoots fl q) :
    |q 2 * r ^ 2 + q 1 * r + q 0| ≤ 4 * (q 1 ^ 2 / |q 2| + 4 * |q 0|) / 2 ^ p := by
  have hp1 : 1 ≤ p := by omega
  simp only [quadraticRoots, if_neg ha] at hr
  generalize q 2 = a at *
  generalize q 1 = b at *
  generalize q 0 = c at *
  have two (s : ℝ) : ∃ g : ℝ, |g| ≤ 2 * (1 / 2 ^ p) + (1 / 2 ^ p) ^ 2 ∧
      fl (fl (-b + s) / (2 * a)) = (-b + s) * (1 + g) / (2 * a) := by
    obtain ⟨d, hd, e⟩ := round_factor hfl hp1 (-b + s)
    obtain ⟨d', hd', e'⟩ := round_factor hfl hp1 (fl (-b + s) / (2 * a))
    refine ⟨(1 + d) * (1 + d') - 1, two_factors hd hd', ?_⟩
    rw [e', e]
    ring
  split at hr
  next hd =>
    obtain ⟨h1, h2⟩ := sqrt_sq_error hfl hp1 hd.le
    rcases List.mem_cons.1 hr with hr | hr
    · obtain ⟨g, hg, e⟩ := two (fl (Real.sqrt (discriminant fl a b c)))
      exact root_residual hfl hp ha h1 h2 hg (hr.trans e)
    · obtain ⟨g, hg, e⟩ := two (-fl (Real.sqrt (discriminant fl a b c)))
      rw [List.mem_singleton, sub_eq_add_neg] at hr
      exact root_residual hfl hp ha (by rwa [neg_sq]) (by rwa [neg_sq]) hg (hr.trans e)
  next hd =>
    split at hr
    next hd0 =>
      rw [List.mem_singleton] at hr
      obtain ⟨g, hg, e⟩ := round_factor hfl hp1 (-b / (2 * a))
      have h1 := discriminant_error hfl hp1 a b c
      rw [hd0, zero_sub, abs_neg] at h1
      have hM : 0 ≤ b ^ 2 + 4 * |a * c| := by positivity
      have hu0 : (0 : ℝ) ≤ 1 / 2 ^ p := by positivity
      refine root_residual hfl hp ha (s := 0) (g := g) ?_ (by rw [zero_pow two_ne_zero]; positivity) ?_ ?_
      · rw [zero_pow two_ne_zero, zero_sub, abs_neg]
        refine h1.trans (mul_le_mul_of_nonneg_right (sub_le_sub_right ?_ 1) hM)
        exact pow_le_pow_right₀ (by linarith) (by omega)
      · have := sq_nonneg (1 / 2 ^ p : ℝ)
        linarith
      · rw [hr, e]
        ring
    next => simp at hr

/-! ## Numbers of roots -/

theorem no_root {a b c : ℝ} (h : b ^ 2 - 4 * a * c < 0) : {x : ℝ | a * x ^ 2 + b * x + c = 0} = ∅ := by
  ext x
  simp only [Set.mem_setOf_eq, Set.mem_empty_iff_false, iff_false]
  intro hx
  have : (2 * a * x + b) ^ 2 = b ^ 2 - 4 * a * c := by linear_combination 4 * a * hx
  nlinarith [sq_nonneg (2 * a * x + b)]

theorem two_roots {a b c : ℝ} (ha : a ≠ 0) (h : 0 < b ^ 2 - 4 * a * c) :
    {x : ℝ | a * x ^ 2 + b * x + c = 0}.ncard = 2 := by
  have hs := Real.sq_sqrt h.le
  have hs0 := Real.sqrt_pos.2 h
  generalize Real.sqrt (b ^ 2 - 4 * a * c) = s at *
  rw [Set.ncard_eq_two]
  refine ⟨(-b + s) / (2 * a), (-b - s) / (2 * a), ?_, ?_⟩
  · intro e
    have : -b + s = -b - s := by
      have := congrArg (· * (2 * a)) e
      simpa [ha] using this
    linarith
  · ext x
    simp only [Set.mem_setOf_eq, Set.mem_insert_iff, Set.mem_singleton_iff]
    rw [eq_div_iff (by simpa using ha), eq_div_iff (by simpa using ha)]
    constructor
    · intro hx
      have : (x * (2 * a) - (-b + s)) * (x * (2 * a) - (-b - s)) = 0 := by linear_combination 4 * a * hx - hs
      rcases mul_eq_zero.1 this with h | h
      · left; linarith
      · right; linarith
    · intro hx
      have : (x * (2 * a) - (-b + s)) * (x * (2 * a) - (-b - s)) = 0 := by
        rcases hx with h | h <;> rw [h] <;> ring
      have h4 : 4 * a * (a * x ^ 2 + b * x + c) = 0 := by linear_combination this + hs
      rcases mul_eq_zero.1 h4 with h | h
      · simp [ha] at h
      · exact h

theorem quadratic_count {p : ℕ} {fl : ℝ → ℝ} (hfl : Rounds p fl) (hp : 1 ≤ p) {q : Coeffs ℝ} (ha : q 2 ≠ 0)
    (h : 3 * (q 1 ^ 2 + 4 * |q 2 * q 0|) / 2 ^ p < |q 1 ^ 2 - 4 * q 2 * q 0|) :
    (quadraticRoots fl q).length = {x : ℝ | q 2 * x ^ 2 + q 1 * x + q 0 = 0}.ncard := by
  have hd := discriminant_error hfl hp (q 2) (q 1) (q 0)
  have hM : 0 ≤ q 1 ^ 2 + 4 * |q 2 * q 0| := by positivity
  have hu1 : (1 : ℝ) / 2 ^ p ≤ 1 := by
    rw [div_le_one (by positivity)]
    exact one_le_pow₀ (by norm_num)
  have hu0 : (0 : ℝ) < 1 / 2 ^ p := by positivity
  have h3 : ((1 + 1 / 2 ^ p : ℝ) ^ 2 - 1) * (q 1 ^ 2 + 4 * |q 2 * q 0|) ≤ 3 * (q 1 ^ 2 + 4 * |q 2 * q 0|) / 2 ^ p := by
    have : 3 * (q 1 ^ 2 + 4 * |q 2 * q 0|) / 2 ^ p = 3 * (1 / 2 ^ p) * (q 1 ^ 2 + 4 * |q 2 * q 0|) := by ring
    rw [this]
    refine mul_le_mul_of_nonneg_right ?_ hM
    nlinarith
  have h4 := hd.trans h3
  have h5 := abs_le.1 h4
  rcases lt_or_ge 0 (q 1 ^ 2 - 4 * q 2 * q 0) with hpos | hneg
  · rw [abs_of_pos hpos] at h
    rw [two_roots ha hpos]
    simp only [quadraticRoots, if_neg ha]
    rw [if_pos (by linarith)]
    rfl
  · rw [abs_of_nonpos hneg] at h
    have : 0 ≤ 3 * (q 1 ^ 2 + 4 * |q 2 * q 0|) / 2 ^ p := by positivity
    rw [no_root (by linarith), Set.ncard_empty]
    simp only [quadraticRoots, if_neg ha]
    rw [if_neg (by linarith), if_neg (by intro e; linarith)]
    rfl

/-! ## Roots without cancellation -/

theorem rel_sqrt {x y B : ℝ} (hx : 0 ≤ x) (hB0 : 0 ≤ B) (hB1 : B ≤ 1) (h : |y - x| ≤ B * x) :
    |Real.sqrt y - Real.sqrt x| ≤ B * Real.sqrt x := by
  have h' := abs_le.1 h
  have hy : 0 ≤ y := by nlinarith
  have hsx := Real.sq_sqrt hx
  have hx0 := Real.sqrt_nonneg x
  have hsy := Real.sq_sqrt hy
  have hy0 := Real.sqrt_nonneg y
  generalize Real.sqrt x = s at *
  generalize Real.sqrt y = t at *
  rw [abs_le]
  rcases eq_or_lt_of_le hx0 with h0 | h0
  · subst h0
    have : t ^ 2 ≤ 0 := by nlinarith
    have : t = 0 := by nlinarith
    subst this
    simp
  · constructor <;> by_contra hc
    · have : t < (1 - B) * s := by linarith
      have : t ^ 2 < ((1 - B) * s) ^ 2 := by
        apply pow_lt_pow_left₀ this hy0 (by norm_num)
      nlinarith [mul_nonneg hB0 (sub_nonneg.2 hB1), sq_nonneg s]
    · have : (1 + B) * s < t := by linarith
      have : ((1 + B) * s) ^ 2 < t ^ 2 := by
        apply pow_lt_pow_left₀ this (by positivity) (by norm_num)
      nlinarith [mul_nonneg hB0 hB0, sq_nonneg s]

/-- The root of larger absolute value, if `a` and `c` have opposite signs (`s` carries the sign of `-b`). -/
theorem large_root {p : ℕ} {fl : ℝ → ℝ} (hfl : Rounds p fl) (hp : 2 ≤ p) {a b c : ℝ} (hac : a * c ≤ 0) (e : ℝ)
    (he : e = 1 ∨ e = -1) (hb : 0 ≤ -b * e) :
    |fl (fl (-b + e * fl (Real.sqrt (discriminant fl a b c))) / (2 * a)) -
        (-b + e * Real.sqrt (b ^ 2 - 4 * a * c)) / (2 * a)| ≤
      ((1 + 1 / 2 ^ p) ^ 5 - 1) * |(-b + e * Real.sqrt (b ^ 2 - 4 * a * c)) / (2 * a)| := by
  have hp1 : 1 ≤ p := by omega
  have hD : 0 ≤ b ^ 2 - 4 * a * c := by nlinarith [sq_nonneg b]
  have hd := discriminant_error hfl hp1 a b c
  have hM : b ^ 2 + 4 * |a * c| = b ^ 2 - 4 * a * c := by rw [abs_of_nonpos hac]; ring
  rw [hM] at hd
  generalize discriminant fl a b c = D' at *
  generalize b ^ 2 - 4 * a * c = D at *
  have hu : (1 : ℝ) / 2 ^ p ≤ 1 / 4 := by
    have : (2 : ℝ) ^ 2 ≤ 2 ^ p := pow_le_pow_right₀ (by norm_num) hp
    exact one_div_le_one_div_of_le (by norm_num) (by norm_num at this ⊢; linarith)
  have hu0 : (0 : ℝ) < 1 / 2 ^ p := by positivity
  have h1 := rel_sqrt hD (B := (1 + 1 / 2 ^ p) ^ 2 - 1) (by nlinarith) (by nlinarith) hd
  have hs0 := Real.sqrt_nonneg D
  have h2 := round_step hfl hp1 (b := Real.sqrt D) (B := Real.sqrt D) (by rw [abs_of_nonneg hs0]) h1
  rw [← pow_succ] at h2
  have he1 : |e| = 1 := by rcases he with rfl | rfl <;> norm_num
  have habs : |-b + e * Real.sqrt D| = |b| + Real.sqrt D := by
    rcases he with rfl | rfl
    · rw [abs_of_nonneg (by linarith), abs_of_nonpos (by linarith)]
      ring
    · rw [abs_of_nonpos (by linarith), abs_of_nonneg (by linarith)]
      ring
  have h3 : |-b + e * fl (Real.sqrt D') - (-b + e * Real.sqrt D)| ≤
      ((1 + 1 / 2 ^ p) ^ 3 - 1) * |-b + e * Real.sqrt D| := by
    have e1 : -b + e * fl (Real.sqrt D') - (-b + e * Real.sqrt D) = e * (fl (Real.sqrt D') - Real.sqrt D) := by ring
    rw [e1, abs_mul, he1, one_mul, habs]
    refine h2.trans (mul_le_mul_of_nonneg_left ?_ ?_)
    · have := abs_nonneg b
      linarith
    · have : (1 : ℝ) ≤ (1 + 1 / 2 ^ p) ^ 3 := one_le_pow₀ (by linarith)
      linarith
  have h4 := round_step hfl hp1 le_rfl h3
  rw [← pow_succ] at h4
  have h5 : |fl (-b + e * fl (Real.sqrt D')) / (2 * a) - (-b + e * Real.sqrt D) / (2 * a)| ≤
      ((1 + 1 / 2 ^ p) ^ 4 - 1) * |(-b + e * Real.sqrt D) / (2 * a)| := by
    rw [← sub_div, abs_div, abs_div, ← mul_div_assoc]
    exact div_le_div_of_nonneg_right h4 (abs_nonneg _)
  have h6 := round_step hfl hp1 le_rfl h5
  rwa [← pow_succ] at h6

/-! ## Rounding of given numbers -/

theorem float_multiple {p : ℕ} {y : ℝ} (h : IsFloat p y) {E : ℤ} (hy : (2 : ℝ) ^ (p - 1 + E) ≤ y) :
    ∃ j : ℤ, y = j * (2 : ℝ) ^ E := by
  obtain ⟨m, e, hm, rfl⟩ := h
  have he : E ≤ e := by
    by_contra hc
    have h1 : (2 : ℝ) ^ e ≤ 2 ^ (E - 1) := zpow_le_zpow_right₀ (by norm_num) (by omega)
    have hm' : (m : ℝ) < 2 ^ p := by
      have := (le_abs_self m).trans_lt hm
      exact_mod_cast this
    have h0 : (0 : ℝ) < 2 ^ e := by positivity
    have h2 : (m : ℝ) * 2 ^ e < 2 ^ p * 2 ^ e := mul_lt_mul_of_pos_right hm' h0
    have h3 : (2 : ℝ) ^ p * 2 ^ e ≤ 2 ^ p * 2 ^ (E - 1) := mul_le_mul_of_nonneg_left h1 (by positivity)
    have h4 : (2 : ℝ) ^ p * 2 ^ (E - 1) = 2 ^ (p - 1 + E) := by
      rw [← zpow_natCast, ← zpow_add₀ (by norm_num)]
      congr 1
      ring
    linarith
  refine ⟨m * 2 ^ (e - E).toNat, ?_⟩
  push_cast
  rw [mul_assoc, ← zpow_natCast, ← zpow_add₀ (by norm_num)]
  congr 2
  omega

/-- The nearest number, if it is nearer than half a unit. -/
theorem round_to {p : ℕ} {fl : ℝ → ℝ} (hfl : Rounds p fl) (hp : 1 ≤ p) {x : ℝ} (k : ℕ) (E : ℤ) (hk : k ≤ 2 ^ p)
    (hk' : 2 ^ (p - 1) < k) (h : |x - k * (2 : ℝ) ^ E| < (2 : ℝ) ^ E / 2) : fl x = k * (2 : ℝ) ^ E := by
  have hE : (0 : ℝ) < 2 ^ E := by positivity
  have hg : IsFloat p (k * (2 : ℝ) ^ E) := by
    have := isFloat_grid (p := p) hp (k := k) (E := E) (by rw [abs_of_nonneg (by omega)]; exact_mod_cast hk)
    simpa using this
  obtain ⟨h1, h2⟩ := hfl x
  have h3 := h2 _ hg
  have h4 : |fl x - k * (2 : ℝ) ^ E| < 2 ^ E := by
    have := abs_sub_le (fl x) x (k * (2 : ℝ) ^ E)
    rw [abs_sub_comm (k * (2 : ℝ) ^ E) x] at h3
    linarith
  have h5 := abs_lt.1 h4
  have hk2 : (2 : ℝ) ^ (p - 1) + 1 ≤ k := by exact_mod_cast hk'
  have h6 : (2 : ℝ) ^ ((p : ℤ) - 1 + E) ≤ fl x := by
    have e : (2 : ℝ) ^ ((p : ℤ) - 1 + E) = 2 ^ (p - 1) * 2 ^ E := by
      rw [zpow_add₀ (by norm_num), ← zpow_natCast]
      congr 2
      omega
    rw [e]
    nlinarith
  obtain ⟨j, hj⟩ := float_multiple h1 h6
  rw [hj] at h4 ⊢
  have : |((j - k : ℤ) : ℝ)| < 1 := by
    have e : (j : ℝ) * 2 ^ E - k * 2 ^ E = ((j - k : ℤ) : ℝ) * 2 ^ E := by push_cast; ring
    rw [e, abs_mul, abs_of_pos hE] at h4
    nlinarith
  have : |j - (k : ℤ)| < 1 := by exact_mod_cast this
  have : j - (k : ℤ) = 0 := Int.abs_lt_one_iff.1 this
  have : j = k := by omega
  rw [this]
  simp

/-! ## Integers -/

theorem isFloat_int {p : ℕ} (hp : 1 ≤ p) {z : ℤ} (h : |z| ≤ 2 ^ p) : IsFloat p z := by
  simpa using isFloat_grid (p := p) hp (E := 0) h

theorem evalLoop_int {p : ℕ} {fl : ℝ → ℝ} (hfl : Rounds p fl) (hp : 1 ≤ p) {c : ℕ → ℤ} {z : ℤ} {n : ℕ}
    (hz : |z| ^ n ≤ 2 ^ p) (hs : ∑ i ∈ Finset.range (n + 1), |c i| * |z| ^ i ≤ 2 ^ p) : ∀ (left i : ℕ) (tmp value : ℝ),
    i + left = n + 1 → (i ≤ n → tmp = ((z ^ i : ℤ) : ℝ)) → value = ((∑ j ∈ Finset.range i, c j * z ^ j : ℤ) : ℝ) →
    evalLoop fl (fun i => (c i : ℝ)) z left i tmp value = ((∑ j ∈ Finset.range (n + 1), c j * z ^ j : ℤ) : ℝ) := by
  have part (m : ℕ) (hm : m ≤ n + 1) : |∑ j ∈ Finset.range m, c j * z ^ j| ≤ 2 ^ p := by
    refine (Finset.abs_sum_le_sum_abs _ _).trans (le_trans ?_ hs)
    refine le_trans (le_of_eq ?_) (Finset.sum_le_sum_of_subset_of_nonneg (Finset.range_mono hm) fun i _ _ => by positivity)
    refine Finset.sum_congr rfl fun j _ => ?_
    rw [abs_mul, abs_pow]
  intro left
  induction left with
  | zero =>
    intro i tmp value hi _ hv
    have : i = n + 1 := by omega
    subst this
    exact hv
  | succ left ih =>
    intro i tmp value hi ht hv
    have hin : i ≤ n := by omega
    unfold evalLoop
    refine ih (i + 1) _ _ (by omega) (fun h => ?_) ?_
    · rw [ht hin, ← Int.cast_mul, ← pow_succ]
      refine hfl.self (isFloat_int hp ?_)
      rw [abs_pow]
      by_cases h0 : z = 0
      · subst h0
        simp
      · exact (pow_le_pow_right₀ (by have := abs_pos.2 h0; omega) h).trans hz
    · rw [ht hin, hv, ← Int.cast_mul]
      have h1 : |c i * z ^ i| ≤ 2 ^ p := by
        rw [abs_mul, abs_pow]
        refine le_trans ?_ hs
        exact Finset.single_le_sum (f := fun i => |c i| * |z| ^ i) (fun i _ => by positivity) (Finset.mem_range.2 (by omega))
      rw [hfl.self (isFloat_int hp h1), ← Int.cast_add, ← Finset.sum_range_succ]
      exact hfl.self (isFloat_int hp (part _ (by omega)))

end Ecl.PolyFloat
