import Verif.Model.CovarianceEllipsoid
import Verif.Spec.Ellipse
import Mathlib.Tactic.FieldSimp
import Mathlib.Tactic.LinearCombination
import Mathlib.Tactic.Linarith

/-! # The covariance ellipse -/
set_option autoImplicit false
set_option linter.unusedSimpArgs false

namespace Ecl.Ellipsoid
open Real Ecl.Angle Ecl.Spec

theorem posDef_coeffs {a b d : ℝ} (h : PosDef2 a b d) : 0 < a ∧ 0 < d ∧ 0 < a * d - b * b := by
  have h1 : 0 < a := by have := h 1 0 (by simp); nlinarith
  have h2 : 0 < d := by have := h 0 1 (by simp); nlinarith
  have h3 := h (-b) a (by simp [h1.ne'])
  refine ⟨h1, h2, ?_⟩
  have : 0 < a * (a * d - b * b) := by nlinarith
  exact pos_of_mul_pos_right this h1.le |>.trans_le le_rfl

/-- The facts about the two lengths. -/
structure Lens (a b d l0 l1 : ℝ) : Prop where
  p0 : 0 < l0
  p1 : 0 < l1
  le : l1 ≤ l0
  sum : l0 * l0 + l1 * l1 = a + d
  prod : (l0 * l0) * (l1 * l1) = a * d - b * b
  ge : a ≤ l0 * l0 ∧ d ≤ l0 * l0 ∧ l1 * l1 ≤ a ∧ l1 * l1 ≤ d

theorem lens_compute {a b d : ℝ} (h : PosDef2 a b d) :
    Lens a b d (compute ⟨a, b, b, d⟩).l0 (compute ⟨a, b, b, d⟩).l1 := by
  obtain ⟨ha, hd, hdet⟩ := posDef_coeffs h
  simp only [compute]
  set r := (a + d) * (a + d) / 4 - a * d + b * b with hr
  have hr0 : 0 ≤ r := by rw [hr]; nlinarith [sq_nonneg (a - d), sq_nonneg b]
  have hs := mul_self_sqrt hr0
  have hn := sqrt_nonneg r
  have hlt : sqrt r < (a + d) / 2 := by
    rw [sqrt_lt' (by linarith)]; rw [hr]; nlinarith
  have hge : |(a - d) / 2| ≤ sqrt r := by
    apply Real.abs_le_sqrt; rw [hr]; nlinarith [sq_nonneg b]
  have hge1 := (abs_le.1 hge).1
  have hge2 := (abs_le.1 hge).2
  have e0 := mul_self_sqrt (show 0 ≤ (a + d) / 2 + sqrt r by linarith)
  have e1 := mul_self_sqrt (show 0 ≤ (a + d) / 2 - sqrt r by linarith)
  refine ⟨sqrt_pos.2 (by linarith), sqrt_pos.2 (by linarith), sqrt_le_sqrt (by linarith), ?_, ?_, ?_⟩
  · rw [e0, e1]; ring
  · rw [e0, e1]
    have : ((a + d) / 2 + sqrt r) * ((a + d) / 2 - sqrt r) = (a + d) * (a + d) / 4 - sqrt r * sqrt r := by ring
    rw [this, hs, hr]; ring
  · rw [e0, e1]; refine ⟨?_, ?_, ?_, ?_⟩ <;> linarith

/-- Columns before normalisation: eigenvectors, orthogonal, not zero. -/
structure Columns (a b d l0 l1 : ℝ) (m : Mat2) : Prop where
  e0 : Eigen2 a b d (l0 * l0) m.m00 m.m10
  e1 : Eigen2 a b d (l1 * l1) m.m01 m.m11
  orth : m.m00 * m.m01 + m.m10 * m.m11 = 0
  n0 : 0 < m.m00 * m.m00 + m.m10 * m.m10
  n1 : 0 < m.m01 * m.m01 + m.m11 * m.m11

theorem rawAxes_columns {a b d l0 l1 : ℝ} (h : Lens a b d l0 l1) : Columns a b d l0 l1 (rawAxes a b b d l0 l1) := by
  have hs := h.sum
  have hp := h.prod
  have hx : l0 * l0 = a + d - l1 * l1 := by linarith
  unfold rawAxes
  split
  next hb =>
    have hb2 : 0 < b * b := mul_self_pos.2 hb
    have q0 : (l0 * l0) * (l0 * l0) - (a + d) * (l0 * l0) + (a * d - b * b) = 0 := by rw [← hs, ← hp]; ring
    have q1 : (l1 * l1) * (l1 * l1) - (a + d) * (l1 * l1) + (a * d - b * b) = 0 := by rw [← hs, ← hp]; ring
    refine ⟨⟨?_, ?_⟩, ⟨?_, ?_⟩, ?_, ?_, ?_⟩
    · simp only; linear_combination -q0
    · simp only; ring
    · simp only; linear_combination -q1
    · simp only; ring
    · simp only; linear_combination hp - d * hs
    · simp only; nlinarith [mul_self_nonneg (l0 * l0 - d)]
    · simp only; nlinarith [mul_self_nonneg (l1 * l1 - d)]
  next hb =>
    have hb0 : b = 0 := not_not.1 hb
    subst hb0
    have hz : (l0 * l0 - a) * (l0 * l0 - d) = 0 := by
      have : (l0 * l0) * (l0 * l0) - (a + d) * (l0 * l0) + (a * d) = 0 := by
        rw [← hs]; linear_combination -hp
      linear_combination this
    have hl2 : l1 * l1 ≤ l0 * l0 := mul_self_le_mul_self h.p1.le h.le
    split
    next hc =>
      have e0 : l0 * l0 = a := by
        rcases mul_eq_zero.1 hz with h' | h'
        · linarith
        · have := h.ge.1; linarith
      have e1 : l1 * l1 = d := by linarith
      refine ⟨⟨?_, ?_⟩, ⟨?_, ?_⟩, ?_, ?_, ?_⟩ <;> simp only [e0, e1] <;> norm_num
    next hc =>
      have e0 : l0 * l0 = d := by
        rcases mul_eq_zero.1 hz with h' | h'
        · have := h.ge.2.1; linarith
        · linarith
      have e1 : l1 * l1 = a := by linarith
      refine ⟨⟨?_, ?_⟩, ⟨?_, ?_⟩, ?_, ?_, ?_⟩ <;> simp only [e0, e1] <;> norm_num

/-- Columns after normalisation. -/
structure Unit2 (a b d l0 l1 : ℝ) (m : Mat2) : Prop where
  e0 : Eigen2 a b d (l0 * l0) m.m00 m.m10
  e1 : Eigen2 a b d (l1 * l1) m.m01 m.m11
  orth : m.m00 * m.m01 + m.m10 * m.m11 = 0
  u0 : m.m00 * m.m00 + m.m10 * m.m10 = 1
  u1 : m.m01 * m.m01 + m.m11 * m.m11 = 1

theorem normalize_unit {a b d l0 l1 : ℝ} {m : Mat2} (h : Columns a b d l0 l1 m) :
    Unit2 a b d l0 l1 (normalizeColumns m) := by
  obtain ⟨⟨e00, e01⟩, ⟨e10, e11⟩, ho, hn0, hn1⟩ := h
  simp only [normalizeColumns]
  set n0 := sqrt (m.m00 * m.m00 + m.m10 * m.m10) with h0
  set n1 := sqrt (m.m01 * m.m01 + m.m11 * m.m11) with h1
  have s0 : n0 * n0 = _ := mul_self_sqrt hn0.le
  have s1 : n1 * n1 = _ := mul_self_sqrt hn1.le
  have p0 : n0 ≠ 0 := (sqrt_pos.2 hn0).ne'
  have p1 : n1 ≠ 0 := (sqrt_pos.2 hn1).ne'
  refine ⟨⟨?_, ?_⟩, ⟨?_, ?_⟩, ?_, ?_, ?_⟩
  · simp only; field_simp; linear_combination e00
  · simp only; field_simp; linear_combination e01
  · simp only; field_simp; linear_combination e10
  · simp only; field_simp; linear_combination e11
  · simp only; field_simp; linear_combination ho
  · simp only; field_simp; linear_combination -s0
  · simp only; field_simp; linear_combination -s1

theorem compute_unit {a b d : ℝ} (h : PosDef2 a b d) :
    Unit2 a b d (compute ⟨a, b, b, d⟩).l0 (compute ⟨a, b, b, d⟩).l1 (compute ⟨a, b, b, d⟩).axes := by
  have := normalize_unit (rawAxes_columns (lens_compute h))
  exact this

theorem cos_sin_atan2 {x y : ℝ} (h : x * x + y * y = 1) : cos (atan2 y x) = x ∧ sin (atan2 y x) = y := by
  have hz : (⟨x, y⟩ : ℂ) ≠ 0 := by
    intro hc
    have h1 := congrArg Complex.re hc
    have h2 := congrArg Complex.im hc
    simp at h1 h2
    subst h1; subst h2; norm_num at h
  have hn : ‖(⟨x, y⟩ : ℂ)‖ = 1 := by
    rw [Complex.norm_eq_sqrt_sq_add_sq]
    simp only
    rw [show x ^ 2 + y ^ 2 = 1 by nlinarith, sqrt_one]
  unfold atan2
  rw [Complex.cos_arg hz, Complex.sin_arg, hn]
  simp

theorem cos_sin_atan2_one (k : ℝ) :
    0 < cos (atan2 k 1) ∧ cos (atan2 k 1) * cos (atan2 k 1) * (1 + k * k) = 1 ∧ sin (atan2 k 1) = k * cos (atan2 k 1) := by
  have hz : (⟨1, k⟩ : ℂ) ≠ 0 := by
    intro hc; have h1 := congrArg Complex.re hc; simp at h1
  have hp : 0 < ‖(⟨1, k⟩ : ℂ)‖ := norm_pos_iff.2 hz
  have hs : ‖(⟨1, k⟩ : ℂ)‖ * ‖(⟨1, k⟩ : ℂ)‖ = 1 + k * k := by
    rw [← pow_two, Complex.sq_norm, Complex.normSq_apply]; ring
  unfold atan2
  rw [Complex.cos_arg hz, Complex.sin_arg]
  simp only
  refine ⟨by positivity, ?_, by ring⟩
  rw [← hs]; field_simp

end Ecl.Ellipsoid
