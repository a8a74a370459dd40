import Verif.Model.PoseFloat
import Verif.Spec.Odometry
import Verif.Spec.AngleFloat
import Mathlib.Analysis.SpecialFunctions.Complex.Arg
import Mathlib.Analysis.Real.Pi.Bounds
import Mathlib.Analysis.SpecialFunctions.Trigonometric.Bounds
import Mathlib.Tactic.Linarith
import Mathlib.Tactic.Positivity
import Mathlib.Tactic.Ring
import Mathlib.Tactic.NormNum

/-! # Helper lemmas for poses in floating point arithmetic -/
set_option autoImplicit false

namespace Ecl.PoseFloat
open Ecl.Angle Ecl.Pose

/-! ## Plane geometry -/

theorem sq_norm (z : ℂ) : ‖z‖ ^ 2 = z.re ^ 2 + z.im ^ 2 := by
  rw [Complex.sq_norm, Complex.normSq_apply]; ring

theorem le_of_sq {a b : ℝ} (hb : 0 ≤ b) (h : a ^ 2 ≤ b ^ 2) : a ≤ b := by
  by_contra hc
  push Not at hc
  nlinarith

theorem cauchy (z w : ℂ) : |z.re * w.re| + |z.im * w.im| ≤ ‖z‖ * ‖w‖ := by
  apply le_of_sq (by positivity)
  rw [mul_pow, sq_norm, sq_norm, abs_mul, abs_mul]
  have h1 := sq_abs z.re
  have h2 := sq_abs z.im
  have h3 := sq_abs w.re
  have h4 := sq_abs w.im
  nlinarith [sq_nonneg (|z.re| * |w.im| - |z.im| * |w.re|)]

theorem sum_le (z : ℂ) : |z.re| + |z.im| ≤ 1.4143 * ‖z‖ := by
  apply le_of_sq (by positivity)
  rw [mul_pow, sq_norm]
  have h1 := sq_abs z.re
  have h2 := sq_abs z.im
  nlinarith [sq_nonneg (|z.re| - |z.im|)]

theorem norm_le_of {z : ℂ} {m : ℝ} (h1 : |z.re| ≤ m) (h2 : |z.im| ≤ m) : ‖z‖ ≤ 1.4143 * m := by
  have hm : 0 ≤ m := (abs_nonneg _).trans h1
  apply le_of_sq (by positivity)
  rw [sq_norm]
  have h3 := sq_le_sq' (abs_le.1 h1).1 (abs_le.1 h1).2
  have h4 := sq_le_sq' (abs_le.1 h2).1 (abs_le.1 h2).2
  nlinarith [sq_nonneg m]

/-- Componentwise smaller. -/
theorem norm_le_scaled {z w : ℂ} {u : ℝ} (hu : 0 ≤ u) (h1 : |z.re| ≤ |w.re| * u) (h2 : |z.im| ≤ |w.im| * u) :
    ‖z‖ ≤ ‖w‖ * u := by
  apply le_of_sq (by positivity)
  rw [mul_pow, sq_norm, sq_norm]
  have h3 : z.re ^ 2 ≤ (|w.re| * u) ^ 2 := by
    rw [← sq_abs z.re]; exact pow_le_pow_left₀ (abs_nonneg _) h1 2
  have h4 : z.im ^ 2 ≤ (|w.im| * u) ^ 2 := by
    rw [← sq_abs z.im]; exact pow_le_pow_left₀ (abs_nonneg _) h2 2
  rw [mul_pow, sq_abs] at h3 h4
  linarith

theorem norm_unit (a : ℝ) : ‖(⟨Real.cos a, Real.sin a⟩ : ℂ)‖ = 1 := by
  have h : ‖(⟨Real.cos a, Real.sin a⟩ : ℂ)‖ ^ 2 = 1 := by
    rw [sq_norm]; simp
  nlinarith [norm_nonneg (⟨Real.cos a, Real.sin a⟩ : ℂ)]

/-! ## Rounding -/

/-- What is used of the rounding: a relative error of at most `u`. -/
structure Rel (u : ℝ) (fl : ℝ → ℝ) : Prop where
  pos : 0 ≤ u
  small : u ≤ 1 / 1024
  err : ∀ x, |fl x - x| ≤ |x| * u

variable {u : ℝ} {fl : ℝ → ℝ}

theorem Rel.abs (h : Rel u fl) (x : ℝ) : |fl x| ≤ |x| * (1 + u) := by
  have h1 := h.err x
  have h2 := abs_sub_abs_le_abs_sub (fl x) x
  linarith

theorem Rel.dot (h : Rel u fl) (a b c d : ℝ) :
    |dotF fl a b c d - (a * b + c * d)| ≤ 2.001 * u * (|a * b| + |c * d|) := by
  unfold dotF
  have h1 := h.err (a * b)
  have h2 := h.err (c * d)
  have h3 := h.err (fl (a * b) + fl (c * d))
  have h4 := abs_add_le (fl (a * b)) (fl (c * d))
  have h5 := h.abs (a * b)
  have h6 := h.abs (c * d)
  have h7 : fl (fl (a * b) + fl (c * d)) - (a * b + c * d) =
      (fl (fl (a * b) + fl (c * d)) - (fl (a * b) + fl (c * d))) + ((fl (a * b) - a * b) +
        (fl (c * d) - c * d)) := by ring
  rw [h7]
  have h8 := abs_add_le (fl (fl (a * b) + fl (c * d)) - (fl (a * b) + fl (c * d)))
    ((fl (a * b) - a * b) + (fl (c * d) - c * d))
  have h9 := abs_add_le (fl (a * b) - a * b) (fl (c * d) - c * d)
  have hu := h.pos
  have hs := h.small
  have hS : 0 ≤ |a * b| + |c * d| := by positivity
  generalize |a * b| = A at *
  generalize |c * d| = C at *
  have h10 : |fl (a * b) + fl (c * d)| * u ≤ ((A + C) * (1 + u)) * u := by
    apply mul_le_mul_of_nonneg_right _ hu; linarith
  have h11 : (A + C) * u * u ≤ (A + C) * u * (1 / 1024) :=
    mul_le_mul_of_nonneg_left hs (by positivity)
  nlinarith

/-- One row of the matrix times a stored rotation. -/
theorem Rel.row (h : Rel u fl) (z : ℂ) (r : Mat2) (θ : ℝ) (h00 : |r.m00 - Real.cos θ| ≤ u)
    (h01 : |r.m01 + Real.sin θ| ≤ u) (h10 : |r.m10 - Real.sin θ| ≤ u) (h11 : |r.m11 - Real.cos θ| ≤ u) :
    ‖(⟨dotF fl z.re r.m00 z.im r.m10, dotF fl z.re r.m01 z.im r.m11⟩ : ℂ)
      - z * ⟨Real.cos θ, -Real.sin θ⟩‖ ≤ 4.84 * u * ‖z‖ := by
  have hu := h.pos
  have hs := h.small
  have comp : ∀ p q c s : ℝ, |p - c| ≤ u → |q - s| ≤ u → ‖(⟨c, s⟩ : ℂ)‖ = 1 →
      |dotF fl z.re p z.im q - (z.re * c + z.im * s)| ≤ 3.4220 * u * ‖z‖ := by
    intro p q c s hp hq hcs
    have h1 := h.dot z.re p z.im q
    have h2 : |z.re * (p - c)| ≤ |z.re| * u := by
      rw [abs_mul]; exact mul_le_mul_of_nonneg_left hp (abs_nonneg _)
    have h3 : |z.im * (q - s)| ≤ |z.im| * u := by
      rw [abs_mul]; exact mul_le_mul_of_nonneg_left hq (abs_nonneg _)
    have h4 := sum_le z
    have h5 := cauchy z ⟨c, s⟩
    simp only [hcs, mul_one] at h5
    have h6 : |z.re * p| ≤ |z.re * c| + |z.re| * u := by
      have := abs_add_le (z.re * c) (z.re * (p - c))
      rw [show z.re * c + z.re * (p - c) = z.re * p by ring] at this
      linarith
    have h7 : |z.im * q| ≤ |z.im * s| + |z.im| * u := by
      have := abs_add_le (z.im * s) (z.im * (q - s))
      rw [show z.im * s + z.im * (q - s) = z.im * q by ring] at this
      linarith
    have h8 : dotF fl z.re p z.im q - (z.re * c + z.im * s) =
        (dotF fl z.re p z.im q - (z.re * p + z.im * q)) + (z.re * (p - c) + z.im * (q - s)) := by ring
    rw [h8]
    have h9 := abs_add_le (dotF fl z.re p z.im q - (z.re * p + z.im * q)) (z.re * (p - c) + z.im * (q - s))
    have h10 := abs_add_le (z.re * (p - c)) (z.im * (q - s))
    have hN : 0 ≤ ‖z‖ := norm_nonneg _
    have h11 : |z.re * p| + |z.im * q| ≤ ‖z‖ * (1 + 1.4143 * u) := by nlinarith
    have h12 : 2.001 * u * (|z.re * p| + |z.im * q|) ≤ 2.001 * u * (‖z‖ * (1 + 1.4143 * u)) :=
      mul_le_mul_of_nonneg_left h11 (by positivity)
    have h13 : u * ‖z‖ * u ≤ u * ‖z‖ * (1 / 1024) := mul_le_mul_of_nonneg_left hs (by positivity)
    have h14 : (|z.re| + |z.im|) * u ≤ 1.4143 * ‖z‖ * u := mul_le_mul_of_nonneg_right h4 hu
    nlinarith
  have e1 : ‖(⟨Real.cos θ, Real.sin θ⟩ : ℂ)‖ = 1 := norm_unit θ
  have e2 : ‖(⟨-Real.sin θ, Real.cos θ⟩ : ℂ)‖ = 1 := by
    have h1 : ‖(⟨-Real.sin θ, Real.cos θ⟩ : ℂ)‖ ^ 2 = 1 := by rw [sq_norm]; simp
    nlinarith [norm_nonneg (⟨-Real.sin θ, Real.cos θ⟩ : ℂ)]
  have k1 := comp _ _ _ _ h00 h10 e1
  have k2 := comp _ _ _ _ (show |r.m01 - -Real.sin θ| ≤ u by rwa [sub_neg_eq_add]) h11 e2
  have := norm_le_of (z := (⟨dotF fl z.re r.m00 z.im r.m10, dotF fl z.re r.m01 z.im r.m11⟩ : ℂ)
      - z * ⟨Real.cos θ, -Real.sin θ⟩) (m := 3.4220 * u * ‖z‖)
    (by
      simp only [Complex.sub_re, Complex.mul_re]
      rwa [show z.re * Real.cos θ - z.im * -Real.sin θ = z.re * Real.cos θ + z.im * Real.sin θ by ring])
    (by
      simp only [Complex.sub_im, Complex.mul_im]
      rwa [show z.re * -Real.sin θ + z.im * Real.cos θ = z.re * -Real.sin θ + z.im * Real.cos θ by ring])
  refine this.trans ?_
  have hN : 0 ≤ u * ‖z‖ := by positivity
  nlinarith

/-! ## Many motions, rotation matrix -/

open Ecl.Spec.Odometry

/-- The length of one motion. -/
theorem norm_eq_sqrt (x y : ℝ) : ‖(⟨x, y⟩ : ℂ)‖ = √(x ^ 2 + y ^ 2) := by
  rw [← sq_norm ⟨x, y⟩, Real.sqrt_sq (norm_nonneg _)]

/-- Errors after `n` motions over a way of length `L`. -/
structure Drift (u n L : ℝ) (p : PoseM) (P : Place) : Prop where
  row0 : ‖(⟨p.rot.m00, p.rot.m01⟩ : ℂ) - ⟨Real.cos P.h, -Real.sin P.h⟩‖ ≤ 5 * n * u
  row1 : ‖(⟨p.rot.m10, p.rot.m11⟩ : ℂ) - ⟨Real.sin P.h, Real.cos P.h⟩‖ ≤ 5 * n * u
  pos : ‖(⟨p.x, p.y⟩ : ℂ) - ⟨P.x, P.y⟩‖ ≤ 8 * n * u * L
  far : ‖(⟨P.x, P.y⟩ : ℂ)‖ ≤ L

theorem Rel.rows (h : Rel u fl) {n : ℝ} (hn : 0 ≤ n) (hnu : n * u ≤ 1 / 1024) (z Q : ℂ) (hQ : ‖Q‖ = 1)
    (hz : ‖z - Q‖ ≤ 5 * n * u) (r : Mat2) (θ : ℝ) (h00 : |r.m00 - Real.cos θ| ≤ u)
    (h01 : |r.m01 + Real.sin θ| ≤ u) (h10 : |r.m10 - Real.sin θ| ≤ u) (h11 : |r.m11 - Real.cos θ| ≤ u) :
    ‖(⟨dotF fl z.re r.m00 z.im r.m10, dotF fl z.re r.m01 z.im r.m11⟩ : ℂ)
      - Q * ⟨Real.cos θ, -Real.sin θ⟩‖ ≤ 5 * (n + 1) * u := by
  have hu := h.pos
  have h1 := h.row z r θ h00 h01 h10 h11
  have hw : ‖(⟨Real.cos θ, -Real.sin θ⟩ : ℂ)‖ = 1 := by
    have := norm_unit (-θ)
    rwa [Real.cos_neg, Real.sin_neg] at this
  have hzn : ‖z‖ ≤ 1 + 5 * n * u := by
    have := norm_add_le (z - Q) Q
    rw [sub_add_cancel, hQ] at this
    linarith
  have h2 : ‖(z - Q) * ⟨Real.cos θ, -Real.sin θ⟩‖ ≤ 5 * n * u := by rw [norm_mul, hw, mul_one]; exact hz
  have h3 := norm_add_le ((⟨dotF fl z.re r.m00 z.im r.m10, dotF fl z.re r.m01 z.im r.m11⟩ : ℂ)
      - z * ⟨Real.cos θ, -Real.sin θ⟩) ((z - Q) * ⟨Real.cos θ, -Real.sin θ⟩)
  rw [show (⟨dotF fl z.re r.m00 z.im r.m10, dotF fl z.re r.m01 z.im r.m11⟩ : ℂ)
      - z * ⟨Real.cos θ, -Real.sin θ⟩ + (z - Q) * ⟨Real.cos θ, -Real.sin θ⟩ =
      ⟨dotF fl z.re r.m00 z.im r.m10, dotF fl z.re r.m01 z.im r.m11⟩
        - Q * ⟨Real.cos θ, -Real.sin θ⟩ by ring] at h3
  have h4 : 4.84 * u * ‖z‖ ≤ 4.84 * u * (1 + 5 * (1 / 1024)) := by
    apply mul_le_mul_of_nonneg_left _ (by positivity); linarith
  nlinarith

/-- A row of the matrix times a translation. -/
theorem Rel.shift (h : Rel u fl) {n : ℝ} (hn : 0 ≤ n) (hnu : n * u ≤ 1 / 1024) (z Q t : ℂ) (hQ : ‖Q‖ = 1)
    (hz : ‖z - Q‖ ≤ 5 * n * u) :
    |dotF fl z.re t.re z.im t.im - (Q.re * t.re + Q.im * t.im)| ≤ (5 * n + 2.02) * u * ‖t‖ := by
  have hu := h.pos
  have h1 := h.dot z.re t.re z.im t.im
  have h2 := cauchy z t
  have h3 := cauchy (z - Q) t
  have hzn : ‖z‖ ≤ 1 + 5 * n * u := by
    have := norm_add_le (z - Q) Q
    rw [sub_add_cancel, hQ] at this
    linarith
  have h4 := abs_add_le (dotF fl z.re t.re z.im t.im - (z.re * t.re + z.im * t.im))
    ((z - Q).re * t.re + (z - Q).im * t.im)
  have h5 := abs_add_le ((z - Q).re * t.re) ((z - Q).im * t.im)
  rw [show dotF fl z.re t.re z.im t.im - (z.re * t.re + z.im * t.im) +
      ((z - Q).re * t.re + (z - Q).im * t.im) =
      dotF fl z.re t.re z.im t.im - (Q.re * t.re + Q.im * t.im) by simp; ring] at h4
  have hT : 0 ≤ ‖t‖ := norm_nonneg _
  have h6 : ‖z - Q‖ * ‖t‖ ≤ 5 * n * u * ‖t‖ := mul_le_mul_of_nonneg_right hz hT
  have h7 : ‖z‖ * ‖t‖ ≤ (1 + 5 * (1 / 1024)) * ‖t‖ := mul_le_mul_of_nonneg_right (by linarith) hT
  have h8 : 2.001 * u * (|z.re * t.re| + |z.im * t.im|) ≤ 2.001 * u * ((1 + 5 * (1 / 1024)) * ‖t‖) :=
    mul_le_mul_of_nonneg_left (h2.trans h7) (by positivity)
  have h9 : 0 ≤ u * ‖t‖ := by positivity
  nlinarith

theorem norm_row1 (a : ℝ) : ‖(⟨Real.sin a, Real.cos a⟩ : ℂ)‖ = 1 := by
  have h : ‖(⟨Real.sin a, Real.cos a⟩ : ℂ)‖ ^ 2 = 1 := by rw [sq_norm]; simp
  nlinarith [norm_nonneg (⟨Real.sin a, Real.cos a⟩ : ℂ)]

theorem norm_row0 (a : ℝ) : ‖(⟨Real.cos a, -Real.sin a⟩ : ℂ)‖ = 1 := by
  have := norm_unit (-a)
  rwa [Real.cos_neg, Real.sin_neg] at this

/-- The translation part of a step: position `c` and place `C`, displacement `d` and `D`. -/
theorem position_step (h : Rel u fl) {k E L T : ℝ} (c C d D : ℂ) (hT : 0 ≤ T) (hE : ‖c - C‖ ≤ E)
    (hL : ‖C + D‖ ≤ L) (hd : ‖d - D‖ ≤ k * u * T) :
    ‖(⟨fl (c.re + d.re), fl (c.im + d.im)⟩ : ℂ) - (C + D)‖ ≤ (E + k * u * T) * (1 + u) + u * L := by
  have hu := h.pos
  have h1 : ‖(⟨fl (c.re + d.re), fl (c.im + d.im)⟩ : ℂ) - (c + d)‖ ≤ ‖c + d‖ * u := by
    apply norm_le_scaled hu
    · simpa using h.err (c.re + d.re)
    · simpa using h.err (c.im + d.im)
  have h2 := norm_add_le (c - C) (d - D)
  have h3 := norm_add_le ((c - C) + (d - D)) (C + D)
  rw [show (c - C) + (d - D) + (C + D) = c + d by ring] at h3
  have h4 := norm_add_le ((⟨fl (c.re + d.re), fl (c.im + d.im)⟩ : ℂ) - (c + d)) ((c - C) + (d - D))
  rw [show (⟨fl (c.re + d.re), fl (c.im + d.im)⟩ : ℂ) - (c + d) + ((c - C) + (d - D)) =
    ⟨fl (c.re + d.re), fl (c.im + d.im)⟩ - (C + D) by ring] at h4
  have h5 : ‖c + d‖ * u ≤ (E + k * u * T + L) * u := mul_le_mul_of_nonneg_right (by linarith) hu
  nlinarith

theorem Drift.step {n L : ℝ} {p : PoseM} {P : Place} (h : Rel u fl) (hn : 0 ≤ n) (hnu : n * u ≤ 1 / 1024)
    (hD : Drift u n L p P) (r : Mat2) (m : Place) (h00 : |r.m00 - Real.cos m.h| ≤ u)
    (h01 : |r.m01 + Real.sin m.h| ≤ u) (h10 : |r.m10 - Real.sin m.h| ≤ u)
    (h11 : |r.m11 - Real.cos m.h| ≤ u) :
    Drift u (n + 1) (L + ‖(⟨m.x, m.y⟩ : ℂ)‖) (mulF fl p ⟨r, m.x, m.y⟩) (go P m) := by
  have hu := h.pos
  have hs := h.small
  have hT : 0 ≤ ‖(⟨m.x, m.y⟩ : ℂ)‖ := norm_nonneg _
  have hL : 0 ≤ L := (norm_nonneg _).trans hD.far
  have e0 : (⟨Real.cos P.h, -Real.sin P.h⟩ : ℂ) * ⟨Real.cos m.h, -Real.sin m.h⟩ =
      ⟨Real.cos (P.h + m.h), -Real.sin (P.h + m.h)⟩ := by
    apply Complex.ext
    · rw [Complex.mul_re, Real.cos_add]; ring
    · rw [Complex.mul_im, Real.sin_add]; ring
  have e1 : (⟨Real.sin P.h, Real.cos P.h⟩ : ℂ) * ⟨Real.cos m.h, -Real.sin m.h⟩ =
      ⟨Real.sin (P.h + m.h), Real.cos (P.h + m.h)⟩ := by
    apply Complex.ext
    · rw [Complex.mul_re, Real.sin_add]; ring
    · rw [Complex.mul_im, Real.cos_add]; ring
  have r0 := h.rows hn hnu ⟨p.rot.m00, p.rot.m01⟩ _ (norm_row0 P.h) hD.row0 r m.h h00 h01 h10 h11
  have r1 := h.rows hn hnu ⟨p.rot.m10, p.rot.m11⟩ _ (norm_row1 P.h) hD.row1 r m.h h00 h01 h10 h11
  rw [e0] at r0
  rw [e1] at r1
  have s0 := h.shift hn hnu ⟨p.rot.m00, p.rot.m01⟩ _ ⟨m.x, m.y⟩ (norm_row0 P.h) hD.row0
  have s1 := h.shift hn hnu ⟨p.rot.m10, p.rot.m11⟩ _ ⟨m.x, m.y⟩ (norm_row1 P.h) hD.row1
  simp only at s0 s1
  -- the displacement
  have hd := norm_le_of (z := (⟨dotF fl p.rot.m00 m.x p.rot.m01 m.y, dotF fl p.rot.m10 m.x p.rot.m11 m.y⟩ : ℂ)
      - ⟨Real.cos P.h * m.x - Real.sin P.h * m.y, Real.sin P.h * m.x + Real.cos P.h * m.y⟩)
    (m := (5 * n + 2.02) * u * ‖(⟨m.x, m.y⟩ : ℂ)‖)
    (by
      simp only [Complex.sub_re]
      rwa [show Real.cos P.h * m.x - Real.sin P.h * m.y = Real.cos P.h * m.x + -Real.sin P.h * m.y by ring])
    (by simp only [Complex.sub_im]; exact s1)
  have hDn : ‖(⟨Real.cos P.h * m.x - Real.sin P.h * m.y, Real.sin P.h * m.x + Real.cos P.h * m.y⟩ : ℂ)‖ =
      ‖(⟨m.x, m.y⟩ : ℂ)‖ := by
    rw [show (⟨Real.cos P.h * m.x - Real.sin P.h * m.y, Real.sin P.h * m.x + Real.cos P.h * m.y⟩ : ℂ) =
      ⟨Real.cos P.h, Real.sin P.h⟩ * ⟨m.x, m.y⟩ from by
        apply Complex.ext
        · rw [Complex.mul_re]
        · rw [Complex.mul_im]; ring, norm_mul, norm_unit, one_mul]
  have hfar : ‖(⟨P.x, P.y⟩ : ℂ) + ⟨Real.cos P.h * m.x - Real.sin P.h * m.y,
      Real.sin P.h * m.x + Real.cos P.h * m.y⟩‖ ≤ L + ‖(⟨m.x, m.y⟩ : ℂ)‖ := by
    refine (norm_add_le _ _).trans ?_
    rw [hDn]
    linarith [hD.far]
  have hp := position_step h (k := 1.4143 * (5 * n + 2.02)) ⟨p.x, p.y⟩ ⟨P.x, P.y⟩ _ _ hT hD.pos hfar
    (hd.trans (le_of_eq (by ring)))
  refine ⟨r0, r1, ?_, hfar⟩
  have e2 : (⟨P.x, P.y⟩ : ℂ) + ⟨Real.cos P.h * m.x - Real.sin P.h * m.y,
      Real.sin P.h * m.x + Real.cos P.h * m.y⟩ = ⟨(go P m).x, (go P m).y⟩ := rfl
  rw [e2] at hp
  refine hp.trans ?_
  generalize ‖(⟨m.x, m.y⟩ : ℂ)‖ = T at *
  have h1 : 8 * (n * u) * L * u ≤ 8 * (1 / 1024) * L * u := by
    apply mul_le_mul_of_nonneg_right _ hu
    apply mul_le_mul_of_nonneg_right _ hL
    linarith
  have h2 : 0 ≤ n * u * T := by positivity
  have h3 : n * u * T * u ≤ n * u * T * (1 / 1024) := mul_le_mul_of_nonneg_left hs h2
  have h4 : 0 ≤ u * T := by positivity
  have h5 : u * T * u ≤ u * T * (1 / 1024) := mul_le_mul_of_nonneg_left hs h4
  have h6 : 0 ≤ u * L := by positivity
  nlinarith

/-! ## Many motions, angle -/

open Ecl.AngleFloat.Spec (Near)

/-- What is used of `wrap_angle`. -/
def Wraps (u : ℝ) (wrap : ℝ → ℝ) : Prop := ∀ a, |wrap a| ≤ 3.15 ∧ Near (2 * u * (|a| + 6)) (wrap a) a

theorem turn_le (a b : ℝ) :
    ‖(⟨Real.cos a, Real.sin a⟩ : ℂ) - ⟨Real.cos b, Real.sin b⟩‖ ≤ |a - b| := by
  apply le_of_sq (abs_nonneg _)
  rw [sq_norm, sq_abs]
  simp only [Complex.sub_re, Complex.sub_im]
  have h1 := Real.one_sub_sq_div_two_le_cos (x := a - b)
  rw [Real.cos_sub] at h1
  nlinarith [Real.sin_sq_add_cos_sq a, Real.sin_sq_add_cos_sq b]

/-- Three terms added up. -/
theorem Rel.sum3 (h : Rel u fl) (x B C q : ℝ) (hq : |q - C| ≤ |C| * u) :
    |fl (fl (x + fl B) + q) - (x + B + C)| ≤ u * (2.001 * |x| + 3.01 * (|B| + |C|)) := by
  have hu := h.pos
  have hs := h.small
  have h1 := h.err B
  have h2 := h.abs B
  have h3 := h.err (x + fl B)
  have h4 := h.abs (x + fl B)
  have h5 := h.err (fl (x + fl B) + q)
  have h6 : |q| ≤ |C| * (1 + u) := by
    have := abs_sub_abs_le_abs_sub q C
    linarith
  have h7 := abs_add_le x (fl B)
  have h8 := abs_add_le (fl (x + fl B)) q
  have e : fl (fl (x + fl B) + q) - (x + B + C) = (fl (fl (x + fl B) + q) - (fl (x + fl B) + q)) +
      ((fl (x + fl B) - (x + fl B)) + ((fl B - B) + (q - C))) := by ring
  rw [e]
  have h9 := abs_add_le (fl (fl (x + fl B) + q) - (fl (x + fl B) + q))
    ((fl (x + fl B) - (x + fl B)) + ((fl B - B) + (q - C)))
  have h10 := abs_add_le (fl (x + fl B) - (x + fl B)) ((fl B - B) + (q - C))
  have h11 := abs_add_le (fl B - B) (q - C)
  have hx := abs_nonneg x
  have hB := abs_nonneg B
  have hC := abs_nonneg C
  generalize |x| = X at *
  generalize |B| = b at *
  generalize |C| = c at *
  have k1 : b * u ≤ b * (1 / 1024) := mul_le_mul_of_nonneg_left hs hB
  have k2 : c * u ≤ c * (1 / 1024) := mul_le_mul_of_nonneg_left hs hC
  have k3 : |x + fl B| ≤ X + b * (1 + 1 / 1024) := by linarith
  have k4 : |fl (x + fl B)| ≤ (X + b * (1 + 1 / 1024)) * (1 + 1 / 1024) := by
    refine h4.trans ?_
    apply mul_le_mul k3 (by linarith) (by linarith) (by positivity)
  have k5 : |x + fl B| * u ≤ (X + b * (1 + 1 / 1024)) * u := mul_le_mul_of_nonneg_right k3 hu
  have k6 : |fl (x + fl B) + q| * u ≤
      ((X + b * (1 + 1 / 1024)) * (1 + 1 / 1024) + c * (1 + 1 / 1024)) * u := by
    apply mul_le_mul_of_nonneg_right _ hu; linarith
  have k7 : 0 ≤ X * u := by positivity
  have k8 : 0 ≤ b * u := by positivity
  have k9 : 0 ≤ c * u := by positivity
  nlinarith

/-- Errors after `n` motions over a way of length `L`. -/
structure Lag (u n L : ℝ) (p : XYH) (P : Place) : Prop where
  head : Near (32 * n * u) p.h P.h
  range : |p.h| ≤ 3.15
  pos : ‖(⟨p.x, p.y⟩ : ℂ) - ⟨P.x, P.y⟩‖ ≤ 33 * n * u * L
  far : ‖(⟨P.x, P.y⟩ : ℂ)‖ ≤ L

theorem Lag.step {n L : ℝ} {p : XYH} {P : Place} {cosF sinF wrap : ℝ → ℝ} (h : Rel u fl) (hn : 0 ≤ n)
    (hnu : n * u ≤ 1 / 1024) (ht : ∀ a, |cosF a - Real.cos a| ≤ u ∧ |sinF a - Real.sin a| ≤ u)
    (hw : Wraps u wrap) (hD : Lag u n L p P) (m : Place) (hm : |m.h| ≤ 3.15) :
    Lag u (n + 1) (L + ‖(⟨m.x, m.y⟩ : ℂ)‖) (concatenateF fl cosF sinF wrap p ⟨m.x, m.y, m.h⟩) (go P m) := by
  have hu := h.pos
  have hs := h.small
  have hT : 0 ≤ ‖(⟨m.x, m.y⟩ : ℂ)‖ := norm_nonneg _
  have hL : 0 ≤ L := (norm_nonneg _).trans hD.far
  obtain ⟨k, hk⟩ := hD.head
  obtain ⟨hc, hsn⟩ := ht p.h
  -- the stored cosine and sine
  have w1 := norm_le_of (z := (⟨cosF p.h, sinF p.h⟩ : ℂ) - ⟨Real.cos p.h, Real.sin p.h⟩) (m := u)
    (by simpa using hc) (by simpa using hsn)
  have w2 := turn_le p.h (P.h + k * (2 * Real.pi))
  rw [Real.cos_add_int_mul_two_pi, Real.sin_add_int_mul_two_pi] at w2
  have w3 : ‖(⟨cosF p.h, sinF p.h⟩ : ℂ) - ⟨Real.cos P.h, Real.sin P.h⟩‖ ≤ (1.4143 + 32 * n) * u := by
    have := norm_add_le ((⟨cosF p.h, sinF p.h⟩ : ℂ) - ⟨Real.cos p.h, Real.sin p.h⟩)
      (⟨Real.cos p.h, Real.sin p.h⟩ - ⟨Real.cos P.h, Real.sin P.h⟩)
    rw [sub_add_sub_cancel] at this
    linarith
  have w4 : ‖(⟨cosF p.h, sinF p.h⟩ : ℂ)‖ ≤ 1.0014 := by
    have := norm_add_le ((⟨cosF p.h, sinF p.h⟩ : ℂ) - ⟨Real.cos p.h, Real.sin p.h⟩)
      ⟨Real.cos p.h, Real.sin p.h⟩
    rw [sub_add_cancel, norm_unit] at this
    linarith
  -- the displacement, exact with the stored cosine and sine
  have d1 : ‖(⟨cosF p.h, sinF p.h⟩ : ℂ) * ⟨m.x, m.y⟩ - ⟨Real.cos P.h, Real.sin P.h⟩ * ⟨m.x, m.y⟩‖ ≤
      (1.4143 + 32 * n) * u * ‖(⟨m.x, m.y⟩ : ℂ)‖ := by
    rw [← sub_mul, norm_mul]
    exact mul_le_mul_of_nonneg_right w3 hT
  have b1 := cauchy ⟨cosF p.h, sinF p.h⟩ ⟨m.x, m.y⟩
  have b2 := cauchy ⟨sinF p.h, cosF p.h⟩ ⟨m.x, m.y⟩
  have e3 : ‖(⟨sinF p.h, cosF p.h⟩ : ℂ)‖ = ‖(⟨cosF p.h, sinF p.h⟩ : ℂ)‖ := by
    rw [norm_eq_sqrt, norm_eq_sqrt, add_comm]
  rw [e3] at b2
  simp only at b1 b2
  have b3 : ‖(⟨cosF p.h, sinF p.h⟩ : ℂ)‖ * ‖(⟨m.x, m.y⟩ : ℂ)‖ ≤ 1.0014 * ‖(⟨m.x, m.y⟩ : ℂ)‖ :=
    mul_le_mul_of_nonneg_right w4 hT
  have q1 := h.sum3 p.x (cosF p.h * m.x) (-(sinF p.h * m.y)) (-fl (sinF p.h * m.y))
    (by
      rw [abs_neg, show -fl (sinF p.h * m.y) - -(sinF p.h * m.y) =
        -(fl (sinF p.h * m.y) - sinF p.h * m.y) by ring, abs_neg]
      exact h.err _)
  have q2 := h.sum3 p.y (sinF p.h * m.x) (cosF p.h * m.y) (fl (cosF p.h * m.y)) (h.err _)
  rw [abs_neg, ← sub_eq_add_neg, ← sub_eq_add_neg] at q1
  have x1 : |p.x| ≤ ‖(⟨p.x, p.y⟩ : ℂ)‖ := Complex.abs_re_le_norm ⟨p.x, p.y⟩
  have y1 : |p.y| ≤ ‖(⟨p.x, p.y⟩ : ℂ)‖ := Complex.abs_im_le_norm ⟨p.x, p.y⟩
  have r1 := norm_le_of (z := (⟨fl (fl (p.x + fl (cosF p.h * m.x)) - fl (sinF p.h * m.y)),
      fl (fl (p.y + fl (sinF p.h * m.x)) + fl (cosF p.h * m.y))⟩ : ℂ) -
        (⟨p.x, p.y⟩ + ⟨cosF p.h, sinF p.h⟩ * ⟨m.x, m.y⟩))
    (m := u * (2.001 * ‖(⟨p.x, p.y⟩ : ℂ)‖ + 3.02 * ‖(⟨m.x, m.y⟩ : ℂ)‖))
    (by
      simp only [Complex.sub_re, Complex.add_re, Complex.mul_re]
      rw [← add_sub_assoc]
      refine q1.trans (mul_le_mul_of_nonneg_left ?_ hu)
      linarith)
    (by
      simp only [Complex.sub_im, Complex.add_im, Complex.mul_im]
      rw [show p.y + (cosF p.h * m.y + sinF p.h * m.x) = p.y + sinF p.h * m.x + cosF p.h * m.y by ring]
      refine q2.trans (mul_le_mul_of_nonneg_left ?_ hu)
      linarith)
  have e4 : (⟨(go P m).x, (go P m).y⟩ : ℂ) = ⟨P.x, P.y⟩ + ⟨Real.cos P.h, Real.sin P.h⟩ * ⟨m.x, m.y⟩ := by
    apply Complex.ext
    · simp [go]
    · simp [go]; ring
  have hfar : ‖(⟨(go P m).x, (go P m).y⟩ : ℂ)‖ ≤ L + ‖(⟨m.x, m.y⟩ : ℂ)‖ := by
    rw [e4]
    refine (norm_add_le _ _).trans ?_
    rw [norm_mul, norm_unit, one_mul]
    linarith [hD.far]
  refine ⟨?_, (hw _).1, ?_, hfar⟩
  · -- the heading
    obtain ⟨j, hj⟩ := (hw (fl (p.h + m.h))).2
    have a1 : |p.h + m.h| ≤ 6.3 := (abs_add_le _ _).trans (by linarith [hD.range])
    have a2 : |fl (p.h + m.h) - (p.h + m.h)| ≤ 6.3 * u :=
      (h.err _).trans (mul_le_mul_of_nonneg_right a1 hu)
    have a3 : |fl (p.h + m.h)| ≤ 6.307 := by
      have := abs_sub_abs_le_abs_sub (fl (p.h + m.h)) (p.h + m.h)
      linarith
    have a4 : 2 * u * (|fl (p.h + m.h)| + 6) ≤ 2 * u * 12.307 :=
      mul_le_mul_of_nonneg_left (by linarith) (by positivity)
    refine ⟨k + j, ?_⟩
    push_cast
    simp only [concatenateF, go]
    rw [abs_le] at hk a2 hj ⊢
    constructor <;> nlinarith [hk.1, hk.2, a2.1, a2.2, hj.1, hj.2]
  · -- the position
    rw [e4]
    have n1 := norm_add_le ((⟨p.x, p.y⟩ : ℂ) - ⟨P.x, P.y⟩) ⟨P.x, P.y⟩
    rw [sub_add_cancel] at n1
    have n2 := norm_add_le ((⟨p.x, p.y⟩ : ℂ) - ⟨P.x, P.y⟩)
      ((⟨cosF p.h, sinF p.h⟩ : ℂ) * ⟨m.x, m.y⟩ - ⟨Real.cos P.h, Real.sin P.h⟩ * ⟨m.x, m.y⟩)
    have n3 := norm_add_le ((⟨fl (fl (p.x + fl (cosF p.h * m.x)) - fl (sinF p.h * m.y)),
      fl (fl (p.y + fl (sinF p.h * m.x)) + fl (cosF p.h * m.y))⟩ : ℂ) -
        (⟨p.x, p.y⟩ + ⟨cosF p.h, sinF p.h⟩ * ⟨m.x, m.y⟩))
      (((⟨p.x, p.y⟩ : ℂ) - ⟨P.x, P.y⟩) +
        ((⟨cosF p.h, sinF p.h⟩ : ℂ) * ⟨m.x, m.y⟩ - ⟨Real.cos P.h, Real.sin P.h⟩ * ⟨m.x, m.y⟩))
    have e5 : ∀ a b c d e : ℂ, (a - (b + c)) + ((b - d) + (c - e)) = a - (d + e) := by intros; ring
    rw [e5] at n3
    refine n3.trans ?_
    have hP := hD.pos
    have hF := hD.far
    generalize ‖(⟨m.x, m.y⟩ : ℂ)‖ = T at *
    have g1 : ‖(⟨p.x, p.y⟩ : ℂ)‖ ≤ L + 33 * n * u * L := by linarith
    have g2 : 33 * (n * u) * L ≤ 33 * (1 / 1024) * L := by
      apply mul_le_mul_of_nonneg_right _ hL; linarith
    have g3 : u * (2.001 * ‖(⟨p.x, p.y⟩ : ℂ)‖ + 3.02 * T) ≤ u * (2.001 * (1.0323 * L) + 3.02 * T) := by
      apply mul_le_mul_of_nonneg_left _ hu
      have : 33 * n * u * L = 33 * (n * u) * L := by ring
      linarith
    have g4 : 0 ≤ u * T := by positivity
    have g5 : 0 ≤ u * L := by positivity
    have g6 : 0 ≤ n * u * T := by positivity
    have g7 : 33 * (n + 1) * u * (L + T) =
        33 * n * u * L + 33 * (n * u * T) + 33 * (u * L) + 33 * (u * T) := by ring
    have g8 : (1.4143 + 32 * n) * u * T = 1.4143 * (u * T) + 32 * (n * u * T) := by ring
    have g9 : u * (2.001 * (1.0323 * L) + 3.02 * T) = 2.0656323 * (u * L) + 3.02 * (u * T) := by ring
    clear b1 b2 b3 q1 q2 w1 w2 w3 w4 hk e3 e4 e5 x1 y1
    linarith

/-! ## The direction of a vector near a unit vector -/

theorem arg_near_one {z : ℂ} {d : ℝ} (hd : d ≤ 1 / 100) (h : ‖z - 1‖ ≤ d) : |Complex.arg z| ≤ 1.6 * d := by
  have hd0 : 0 ≤ d := (norm_nonneg _).trans h
  have hre : |z.re - 1| ≤ d := by
    have := Complex.abs_re_le_norm (z - 1)
    simp only [Complex.sub_re, Complex.one_re] at this
    linarith
  have him : |z.im| ≤ d := by
    have := Complex.abs_im_le_norm (z - 1)
    simp only [Complex.sub_im, Complex.one_im, sub_zero] at this
    linarith
  have hr : 0 < z.re := by linarith [(abs_le.1 hre).1]
  have hn : 0.99 ≤ ‖z‖ := by
    have := norm_sub_norm_le (1 : ℂ) z
    rw [norm_one, norm_sub_rev] at this
    linarith
  have hlt := Complex.abs_arg_lt_pi_div_two_iff.2 (Or.inl hr)
  have hz : z ≠ 0 := by rintro rfl; simp at hr
  have hsin : |Real.sin (Complex.arg z)| ≤ d / 0.99 := by
    rw [Complex.sin_arg, abs_div, abs_norm]
    apply div_le_div₀ hd0 him (by norm_num) hn
  have hms := Real.mul_abs_le_abs_sin hlt.le
  have hpi := Real.pi_lt_d2
  have hp := Real.pi_pos
  have h1 : 2 / Real.pi * |Complex.arg z| ≤ d / 0.99 := hms.trans hsin
  rw [div_mul_eq_mul_div, div_le_iff₀ hp] at h1
  have h2 : d / 0.99 * Real.pi ≤ d / 0.99 * 3.15 := mul_le_mul_of_nonneg_left hpi.le (by positivity)
  have h3 : d / 0.99 * 3.15 ≤ 3.2 * d := by rw [div_mul_eq_mul_div, div_le_iff₀ (by norm_num)]; linarith
  linarith

theorem arg_near {z : ℂ} {t d : ℝ} (hd : d ≤ 1 / 100)
    (h : ‖z - ⟨Real.cos t, Real.sin t⟩‖ ≤ d) : Near (1.6 * d) (Complex.arg z) t := by
  have e : (⟨Real.cos t, Real.sin t⟩ : ℂ) = Complex.exp (t * Complex.I) := by
    apply Complex.ext
    · rw [Complex.exp_ofReal_mul_I_re]
    · rw [Complex.exp_ofReal_mul_I_im]
  have hn : ‖Complex.exp (-t * Complex.I)‖ = 1 := by
    have := Complex.norm_exp_ofReal_mul_I (-t)
    push_cast at this
    exact this
  have hE : Complex.exp (t * Complex.I) * Complex.exp (-t * Complex.I) = 1 := by
    rw [← Complex.exp_add]; simp
  have h1 : ‖z * Complex.exp (-t * Complex.I) - 1‖ ≤ d := by
    rw [← hE, ← sub_mul, norm_mul, hn, mul_one, ← e]; exact h
  have h2 := arg_near_one hd h1
  have hz : z ≠ 0 := by
    rintro rfl
    rw [zero_sub, norm_neg, norm_unit] at h
    linarith
  have h3 := Complex.arg_mul_coe_angle hz (Complex.exp_ne_zero (-t * Complex.I))
  have h4 : (Complex.arg (Complex.exp (-t * Complex.I)) : Real.Angle) = ((-t : ℝ) : Real.Angle) := by
    have := Complex.arg_exp_mul_I (-t)
    push_cast at this
    rw [this, Real.Angle.coe_toIocMod]
  rw [h4, ← Real.Angle.coe_add, Real.Angle.angle_eq_iff_two_pi_dvd_sub] at h3
  obtain ⟨k, hk⟩ := h3
  refine ⟨-k, ?_⟩
  push_cast
  rw [show Complex.arg z - (t + -(k : ℝ) * (2 * Real.pi)) = Complex.arg (z * Complex.exp (-t * Complex.I)) by linarith]
  exact h2

end Ecl.PoseFloat
