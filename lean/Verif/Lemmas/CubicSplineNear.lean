import Verif.Lemmas.CubicSplineSystem
import Verif.Spec.SplinePieces
import Verif.Props.C124_InterpolationFloat

/-! # Cubic splines with rounding: the pieces -/
set_option autoImplicit false
set_option linter.unusedSimpArgs false

namespace Ecl.SplineFloat
open Ecl Ecl.Poly Ecl.Glue Ecl.Spec Polynomial
open Ecl.PolyFloat (Close)
open Ecl.CubicSpline (Spline at' segment segment_spec withPoly polynomials polynomials_spec second_piece slope_piece)

variable {fl : ℝ → ℝ}

/-- The exact rows in the form used here. -/
theorem exact_row {x y M : ℕ → ℝ} {i : ℕ} (h1 : x i < x (i + 1)) (h2 : x (i + 1) < x (i + 2))
    (h : (x (i + 1) - x i) * M i + 2 * (x (i + 2) - x i) * M (i + 1) + (x (i + 2) - x (i + 1)) * M (i + 2) =
      6 * ((y (i + 2) - y (i + 1)) / (x (i + 2) - x (i + 1)) - (y (i + 1) - y i) / (x (i + 1) - x i))) :
    share x i * M i + 2 * M (i + 1) + (1 - share x i) * M (i + 2) = rhs x y i := by
  have hb : x (i + 2) - x i ≠ 0 := by linarith
  unfold rhs share
  rw [← h]
  field_simp
  ring

/-- Second derivatives computed with rounding lie near the exact ones. -/
theorem near_exact {x y M M' : ℕ → ℝ} {m : ℕ} (hk : Knots x (m + 1)) {d0 u0 v0 qn un vn R : ℝ} (hR : 0 ≤ R)
    (hends : d0 = 0 ∧ qn = 0 ∨ d0 = -0.5 ∧ qn = 0.5)
    (f0 : |M' 0 - (d0 * M' 1 + v0)| ≤ 8 * (1 / 2 ^ 53 * R)) (f1 : |qn * M' m + M' (m + 1) - vn| ≤ 20 * (1 / 2 ^ 53 * R))
    (fr : ∀ i, i < m → |share x i * M' i + 2 * M' (i + 1) + (1 - share x i) * M' (i + 2) - rhs x y i| ≤
      200 * (1 / 2 ^ 53 * R))
    (g0 : M 0 = d0 * M 1 + u0) (g1 : qn * M m + M (m + 1) = un)
    (gr : ∀ i, i < m → (x (i + 1) - x i) * M i + 2 * (x (i + 2) - x i) * M (i + 1) + (x (i + 2) - x (i + 1)) * M (i + 2) =
      6 * ((y (i + 2) - y (i + 1)) / (x (i + 2) - x (i + 1)) - (y (i + 1) - y i) / (x (i + 1) - x i)))
    (e0 : |v0 - u0| ≤ 10 * (1 / 2 ^ 53) * R) (en : |vn - un| ≤ 10 * (1 / 2 ^ 53) * R) :
    ∀ i, i ≤ m + 1 → |M' i - M i| ≤ 200 * (1 / 2 ^ 53 * R) := by
  have hu := unit_pos
  generalize (1 : ℝ) / 2 ^ 53 = u at *
  have huR : 0 ≤ u * R := mul_nonneg hu.le hR
  refine dominant (e := fun i => M' i - M i) (s := share x) (by linarith) ?_ ?_ ?_
  · have a : |(M' 0 - M 0) - d0 * (M' 1 - M 1)| ≤ 18 * (u * R) := by
      have e : (M' 0 - M 0) - d0 * (M' 1 - M 1) = (M' 0 - (d0 * M' 1 + v0)) + (v0 - u0) := by rw [g0]; ring
      rw [e]; refine (abs_add_le _ _).trans ?_; linarith
    have a2 : |2 * ((M' 0 - M 0) - d0 * (M' 1 - M 1))| ≤ 200 * (u * R) := by
      rw [abs_mul, abs_of_pos (by norm_num : (0 : ℝ) < 2)]; linarith
    rcases hends with ⟨h, -⟩ | ⟨h, -⟩
    · left
      have e : 2 * (M' 0 - M 0) + 0 * (M' 1 - M 1) = 2 * ((M' 0 - M 0) - d0 * (M' 1 - M 1)) := by rw [h]; ring
      rw [e]; exact a2
    · right
      have e : 2 * (M' 0 - M 0) + (M' 1 - M 1) = 2 * ((M' 0 - M 0) - d0 * (M' 1 - M 1)) := by rw [h]; ring
      rw [e]; exact a2
  · have a : |qn * (M' m - M m) + (M' (m + 1) - M (m + 1))| ≤ 30 * (u * R) := by
      have e : qn * (M' m - M m) + (M' (m + 1) - M (m + 1)) = (qn * M' m + M' (m + 1) - vn) + (vn - un) := by
        rw [← g1]; ring
      rw [e]; refine (abs_add_le _ _).trans ?_; linarith
    have a2 : |2 * (qn * (M' m - M m) + (M' (m + 1) - M (m + 1)))| ≤ 200 * (u * R) := by
      rw [abs_mul, abs_of_pos (by norm_num : (0 : ℝ) < 2)]; linarith
    rcases hends with ⟨-, h⟩ | ⟨-, h⟩
    · left
      have e : 2 * (M' (m + 1) - M (m + 1)) + 0 * (M' m - M m) =
        2 * (qn * (M' m - M m) + (M' (m + 1) - M (m + 1))) := by rw [h]; ring
      rw [e]; exact a2
    · right
      have e : 2 * (M' (m + 1) - M (m + 1)) + (M' m - M m) =
        2 * (qn * (M' m - M m) + (M' (m + 1) - M (m + 1))) := by rw [h]; ring
      rw [e]; exact a2
  · intro i hi
    have h1 := hk i (by omega)
    have h2 := hk (i + 1) (by omega)
    have hb : 0 < x (i + 2) - x i := by linarith
    refine ⟨div_nonneg (by linarith) hb.le, (div_le_one hb).2 (by linarith), ?_⟩
    have e : share x i * (M' i - M i) + 2 * (M' (i + 1) - M (i + 1)) + (1 - share x i) * (M' (i + 2) - M (i + 2)) =
        share x i * M' i + 2 * M' (i + 1) + (1 - share x i) * M' (i + 2) - rhs x y i := by
      rw [← exact_row h1 h2 (gr i hi)]; ring
    rw [e]; exact fr i hi

/-- Value and derivatives of a cubic through its coefficients. -/
theorem cubic_form {P : ℝ[X]} (h : P.natDegree ≤ 3) : ∃ a b c d : ℝ, ∀ x, P.eval x = a + b * x + c * x ^ 2 + d * x ^ 3 ∧
    P.derivative.eval x = b + 2 * c * x + 3 * d * x ^ 2 ∧ P.derivative.derivative.eval x = 2 * c + 6 * d * x := by
  have e : P = C (P.coeff 0) + C (P.coeff 1) * X + C (P.coeff 2) * X ^ 2 + C (P.coeff 3) * X ^ 3 := by
    conv_lhs => rw [P.as_sum_range_C_mul_X_pow' (n := 4) (by omega)]
    simp [Finset.sum_range_succ]
  refine ⟨P.coeff 0, P.coeff 1, P.coeff 2, P.coeff 3, fun x => ?_⟩
  generalize P.coeff 0 = a at e
  generalize P.coeff 1 = b at e
  generalize P.coeff 2 = c at e
  generalize P.coeff 3 = d at e
  subst e
  refine ⟨by simp, by simp; ring, by simp; ring⟩

/-- Weights of the ends. -/
theorem weight0 {t : ℝ} (t0 : 0 ≤ t) (t1 : t ≤ 1) : |(1 - t) ^ 3 - (1 - t)| + |t ^ 3 - t| ≤ 1 := by
  have a : 0 ≤ t * (1 - t) := mul_nonneg t0 (by linarith)
  have e1 : (1 - t) ^ 3 - (1 - t) = -(t * (1 - t) * (2 - t)) := by ring
  have e2 : t ^ 3 - t = -(t * (1 - t) * (1 + t)) := by ring
  have a1 : 0 ≤ t * (1 - t) * (2 - t) := mul_nonneg a (by linarith)
  have a2 : 0 ≤ t * (1 - t) * (1 + t) := mul_nonneg a (by linarith)
  rw [e1, e2, abs_neg, abs_neg, abs_of_nonneg a1, abs_of_nonneg a2]
  have : t * (1 - t) * (2 - t) + t * (1 - t) * (1 + t) = 3 * (t * (1 - t)) := by ring
  have : t * (1 - t) = 1 / 4 - (t - 1 / 2) ^ 2 := by ring
  linarith [sq_nonneg (t - 1 / 2)]

theorem weight1 {t : ℝ} (t0 : 0 ≤ t) (t1 : t ≤ 1) : |1 - 3 * (1 - t) ^ 2| + |3 * t ^ 2 - 1| ≤ 4 := by
  have : |1 - 3 * (1 - t) ^ 2| ≤ 2 := abs_le.2 ⟨by nlinarith, by nlinarith [sq_nonneg (1 - t)]⟩
  have : |3 * t ^ 2 - 1| ≤ 2 := abs_le.2 ⟨by nlinarith [sq_nonneg t], by nlinarith⟩
  linarith

theorem weight2 {t : ℝ} (t0 : 0 ≤ t) (t1 : t ≤ 1) : |t * (1 - t) ^ 2| + |-(t ^ 2 * (1 - t))| ≤ 1 / 4 := by
  have t1' : 0 ≤ 1 - t := by linarith
  rw [abs_neg, abs_of_nonneg (by positivity), abs_of_nonneg (by positivity)]
  nlinarith [sq_nonneg (t - 1 / 2)]

theorem weight3 {t : ℝ} (t0 : 0 ≤ t) (t1 : t ≤ 1) : |(1 - t) * (1 - 3 * t)| + |t * (3 * t - 2)| ≤ 2 := by
  have : |(1 - t) * (1 - 3 * t)| ≤ 1 := abs_le.2 ⟨by nlinarith [sq_nonneg (3 * t - 2)], by nlinarith⟩
  have : |t * (3 * t - 2)| ≤ 1 := abs_le.2 ⟨by nlinarith [sq_nonneg (3 * t - 1)], by nlinarith⟩
  linarith

/-- Two cubics with the same end values and nearly the same second derivatives at the ends. -/
theorem pieces_near_curvatures {P Q : ℝ[X]} (hP : P.natDegree ≤ 3) (hQ : Q.natDegree ≤ 3) {a b e : ℝ} (hab : a < b)
    (va : P.eval a = Q.eval a) (vb : P.eval b = Q.eval b)
    (ca : |P.derivative.derivative.eval a - Q.derivative.derivative.eval a| ≤ e)
    (cb : |P.derivative.derivative.eval b - Q.derivative.derivative.eval b| ≤ e) {x : ℝ} (h1 : a ≤ x) (h2 : x ≤ b) :
    |P.eval x - Q.eval x| ≤ e * (b - a) ^ 2 / 6 ∧ |P.derivative.eval x - Q.derivative.eval x| ≤ 2 / 3 * e * (b - a) ∧
      |P.derivative.derivative.eval x - Q.derivative.derivative.eval x| ≤ e := by
  obtain ⟨p0, p1, p2, p3, hp⟩ := cubic_form hP
  obtain ⟨q0, q1, q2, q3, hq⟩ := cubic_form hQ
  simp only [hp, hq] at *
  have hd : 0 < b - a := sub_pos.2 hab
  have he : 0 ≤ e := (abs_nonneg _).trans ca
  obtain ⟨t, rfl⟩ : ∃ t, x = a + t * (b - a) := ⟨(x - a) / (b - a), by field_simp; ring⟩
  have t0 : 0 ≤ t := by
    have : 0 ≤ t * (b - a) := by linarith
    exact nonneg_of_mul_nonneg_left this hd
  have t1 : t ≤ 1 := by
    by_contra hc
    have := mul_lt_mul_of_pos_right (not_le.1 hc) hd
    linarith
  generalize hA : 2 * p2 + 6 * p3 * a - (2 * q2 + 6 * q3 * a) = A at ca
  generalize hB : 2 * p2 + 6 * p3 * b - (2 * q2 + 6 * q3 * b) = B at cb
  have ha := abs_le.1 ca
  have hb := abs_le.1 cb
  obtain ⟨h, rfl⟩ : ∃ h, b = a + h := ⟨b - a, by ring⟩
  rw [add_sub_cancel_left] at hd ⊢
  have hne := hd.ne'
  generalize k0 : p0 - q0 = d0
  generalize k1 : p1 - q1 = d1
  generalize k2 : p2 - q2 = d2
  generalize k3 : p3 - q3 = d3
  have r0 : p0 = q0 + d0 := by linarith
  have r1 : p1 = q1 + d1 := by linarith
  have r2 : p2 = q2 + d2 := by linarith
  have r3 : p3 = q3 + d3 := by linarith
  subst r0 r1 r2 r3
  have e3 : d3 = (B - A) / (6 * h) := by rw [← hA, ← hB]; field_simp; ring
  have e2 : d2 = A / 2 - 3 * d3 * a := by rw [← hA]; ring
  have e1 : d1 = -(d2 * (2 * a + h) + d3 * (3 * a ^ 2 + 3 * a * h + h ^ 2)) := by
    have : h * (d1 + (d2 * (2 * a + h) + d3 * (3 * a ^ 2 + 3 * a * h + h ^ 2))) = 0 := by linear_combination vb - va
    rcases mul_eq_zero.1 this with h | h
    · exact absurd h hne
    · linarith
  have e0 : d0 = -(d1 * a + d2 * a ^ 2 + d3 * a ^ 3) := by linear_combination va
  have two : ∀ p q k : ℝ, |p| + |q| ≤ k → |p * A + q * B| ≤ k * e := by
    intro p q k hpq
    refine (abs_add_le _ _).trans ?_
    rw [abs_mul, abs_mul]
    have := mul_le_mul_of_nonneg_left ca (abs_nonneg p)
    have := mul_le_mul_of_nonneg_left cb (abs_nonneg q)
    have := mul_le_mul_of_nonneg_right hpq he
    linarith
  refine ⟨?_, ?_, ?_⟩
  · have e : q0 + d0 + (q1 + d1) * (a + t * h) + (q2 + d2) * (a + t * h) ^ 2 + (q3 + d3) * (a + t * h) ^ 3 -
        (q0 + q1 * (a + t * h) + q2 * (a + t * h) ^ 2 + q3 * (a + t * h) ^ 3) =
        (((1 - t) ^ 3 - (1 - t)) * A + (t ^ 3 - t) * B) * (h ^ 2 / 6) := by
      rw [e0, e1, e2, e3]; field_simp; ring
    rw [e, abs_mul, abs_of_pos (by positivity : 0 < h ^ 2 / 6)]
    have := two ((1 - t) ^ 3 - (1 - t)) (t ^ 3 - t) 1 (weight0 t0 t1)
    have := mul_le_mul_of_nonneg_right this (by positivity : 0 ≤ h ^ 2 / 6)
    linarith
  · have e : q1 + d1 + 2 * (q2 + d2) * (a + t * h) + 3 * (q3 + d3) * (a + t * h) ^ 2 -
        (q1 + 2 * q2 * (a + t * h) + 3 * q3 * (a + t * h) ^ 2) =
        ((1 - 3 * (1 - t) ^ 2) * A + (3 * t ^ 2 - 1) * B) * (h / 6) := by
      rw [e1, e2, e3]; field_simp; ring
    rw [e, abs_mul, abs_of_pos (by positivity : 0 < h / 6)]
    have := two (1 - 3 * (1 - t) ^ 2) (3 * t ^ 2 - 1) 4 (weight1 t0 t1)
    have := mul_le_mul_of_nonneg_right this (by positivity : 0 ≤ h / 6)
    linarith
  · have e : 2 * (q2 + d2) + 6 * (q3 + d3) * (a + t * h) - (2 * q2 + 6 * q3 * (a + t * h)) =
        (1 - t) * A + t * B := by
      rw [e2, e3]; field_simp; ring
    rw [e]
    have := two (1 - t) t 1 (by rw [abs_of_nonneg (by linarith), abs_of_nonneg t0]; linarith)
    linarith

/-- Two cubics with the same end values and nearly the same slopes at the ends. -/
theorem pieces_near_slopes {P Q : ℝ[X]} (hP : P.natDegree ≤ 3) (hQ : Q.natDegree ≤ 3) {a b e : ℝ} (hab : a < b)
    (va : P.eval a = Q.eval a) (vb : P.eval b = Q.eval b)
    (ca : |P.derivative.eval a - Q.derivative.eval a| ≤ e)
    (cb : |P.derivative.eval b - Q.derivative.eval b| ≤ e) {x : ℝ} (h1 : a ≤ x) (h2 : x ≤ b) :
    |P.eval x - Q.eval x| ≤ e * (b - a) / 4 ∧ |P.derivative.eval x - Q.derivative.eval x| ≤ 2 * e := by
  obtain ⟨p0, p1, p2, p3, hp⟩ := cubic_form hP
  obtain ⟨q0, q1, q2, q3, hq⟩ := cubic_form hQ
  simp only [hp, hq] at *
  have hd : 0 < b - a := sub_pos.2 hab
  have he : 0 ≤ e := (abs_nonneg _).trans ca
  obtain ⟨t, rfl⟩ : ∃ t, x = a + t * (b - a) := ⟨(x - a) / (b - a), by field_simp; ring⟩
  have t0 : 0 ≤ t := by
    have : 0 ≤ t * (b - a) := by linarith
    exact nonneg_of_mul_nonneg_left this hd
  have t1 : t ≤ 1 := by
    by_contra hc
    have := mul_lt_mul_of_pos_right (not_le.1 hc) hd
    linarith
  generalize hA : p1 + 2 * p2 * a + 3 * p3 * a ^ 2 - (q1 + 2 * q2 * a + 3 * q3 * a ^ 2) = A at ca
  generalize hB : p1 + 2 * p2 * b + 3 * p3 * b ^ 2 - (q1 + 2 * q2 * b + 3 * q3 * b ^ 2) = B at cb
  obtain ⟨h, rfl⟩ : ∃ h, b = a + h := ⟨b - a, by ring⟩
  rw [add_sub_cancel_left] at hd ⊢
  have hne := hd.ne'
  generalize k0 : p0 - q0 = d0
  generalize k1 : p1 - q1 = d1
  generalize k2 : p2 - q2 = d2
  generalize k3 : p3 - q3 = d3
  have r0 : p0 = q0 + d0 := by linarith
  have r1 : p1 = q1 + d1 := by linarith
  have r2 : p2 = q2 + d2 := by linarith
  have r3 : p3 = q3 + d3 := by linarith
  subst r0 r1 r2 r3
  have v1 : A + (d2 + 3 * d3 * a) * h + d3 * h ^ 2 = 0 := by
    have : h * (A + (d2 + 3 * d3 * a) * h + d3 * h ^ 2) = 0 := by rw [← hA]; linear_combination vb - va
    rcases mul_eq_zero.1 this with h | h
    · exact absurd h hne
    · exact h
  have v2 : B = A + 2 * (d2 + 3 * d3 * a) * h + 3 * d3 * h ^ 2 := by rw [← hA, ← hB]; ring
  have e3 : d3 = (A + B) / h ^ 2 := by field_simp; linarith
  have e2 : d2 = -(2 * A + B) / h - 3 * d3 * a := by
    have : (d2 + 3 * d3 * a) * h = -(2 * A + B) := by linarith
    field_simp; linarith
  have e1 : d1 = A - 2 * d2 * a - 3 * d3 * a ^ 2 := by rw [← hA]; ring
  have e0 : d0 = -(d1 * a + d2 * a ^ 2 + d3 * a ^ 3) := by linear_combination va
  have two : ∀ p q k : ℝ, |p| + |q| ≤ k → |p * A + q * B| ≤ k * e := by
    intro p q k hpq
    refine (abs_add_le _ _).trans ?_
    rw [abs_mul, abs_mul]
    have := mul_le_mul_of_nonneg_left ca (abs_nonneg p)
    have := mul_le_mul_of_nonneg_left cb (abs_nonneg q)
    have := mul_le_mul_of_nonneg_right hpq he
    linarith
  refine ⟨?_, ?_⟩
  · have e : q0 + d0 + (q1 + d1) * (a + t * h) + (q2 + d2) * (a + t * h) ^ 2 + (q3 + d3) * (a + t * h) ^ 3 -
        (q0 + q1 * (a + t * h) + q2 * (a + t * h) ^ 2 + q3 * (a + t * h) ^ 3) =
        ((t * (1 - t) ^ 2) * A + (-(t ^ 2 * (1 - t))) * B) * h := by
      rw [e0, e1, e2, e3]; field_simp; ring
    rw [e, abs_mul, abs_of_pos hd]
    have t1' : 0 ≤ 1 - t := by linarith
    have := two (t * (1 - t) ^ 2) (-(t ^ 2 * (1 - t))) (1 / 4) (weight2 t0 t1)
    have := mul_le_mul_of_nonneg_right this hd.le
    linarith
  · have e : q1 + d1 + 2 * (q2 + d2) * (a + t * h) + 3 * (q3 + d3) * (a + t * h) ^ 2 -
        (q1 + 2 * q2 * (a + t * h) + 3 * q3 * (a + t * h) ^ 2) =
        ((1 - t) * (1 - 3 * t)) * A + (t * (3 * t - 2)) * B := by
      rw [e1, e2, e3]; field_simp; ring
    rw [e]
    have := two ((1 - t) * (1 - 3 * t)) (t * (3 * t - 2)) 2 (weight3 t0 t1)
    linarith

/-- The calls of a spline answer from the polynomial of the segment. -/
theorem answers (mode : Mode) {xs : List ℝ} {m : ℕ} (hm : xs.length = m + 2) (hk : Knots (at' xs) (m + 1))
    {mk : ℕ → Outcome (Coeffs ℝ)} (hmk : ∀ j, j < m + 1 → ∃ c, mk j = .ok c) :
    ∃ ps, polynomials mk (xs.length - 1) 0 = .ok ps ∧ ∀ k c, k < m + 1 → mk k = .ok c → ∀ x, at' xs k ≤ x →
      x ≤ at' xs (k + 1) → (k = 0 ∨ at' xs k < x) → ∀ f : Coeffs ℝ → ℝ,
        (segment mode xs x).bind (withPoly mode ⟨xs, ps⟩ f) = .ok (f c) := by
  obtain ⟨ps, h1, -, h3⟩ := polynomials_spec (mk := mk) (m + 1) 0 (by simpa using hmk)
  refine ⟨ps, by rw [show xs.length - 1 = m + 1 by omega]; exact h1, ?_⟩
  intro k c hkm hc x hx1 hx2 hx3 f
  have hr := hk.rising
  rw [segment_spec mode hm hr hkm ⟨(hr.le (Nat.zero_le _) (by omega)).trans hx1, hx2.trans (hr.le (by omega) (by omega))⟩
    hx2 hx3]
  obtain ⟨c', h4, h5⟩ := h3 k hkm
  rw [Nat.zero_add, hc] at h5
  cases h5
  simp only [Outcome.bind, withPoly, h4]

end Ecl.SplineFloat
