import Verif.Lemmas.TensionBound
import Verif.Spec.Polyline
import Mathlib.Analysis.Convex.Deriv

/-! # Tension splines of high and of low tension -/
set_option autoImplicit false
set_option linter.unusedSimpArgs false

namespace Ecl.TensionSpline
open Ecl Ecl.CubicSpline Ecl.Glue Ecl.Spec Set

/-! ## High tension -/

theorem one_le_coth {u : ℝ} (hu : 0 < u) : 1 ≤ Real.cosh u / Real.sinh u := by
  rw [le_div_iff₀ (Real.sinh_pos_iff.2 hu), one_mul]
  exact (Real.sinh_lt_cosh u).le

/-- `sinh` grows at least linearly between two arguments. -/
theorem sinh_mul_le {p w : ℝ} (hp : 0 ≤ p) (hpw : p ≤ w) : w * Real.sinh p ≤ p * Real.sinh w := by
  rcases hp.eq_or_lt with rfl | hp'
  · simp
  have hw : 0 < w := lt_of_lt_of_le hp' hpw
  have hconv : ConvexOn ℝ (Ici (0:ℝ)) Real.sinh := by
    apply convexOn_of_deriv2_nonneg (convex_Ici 0) Real.continuous_sinh.continuousOn
    · exact Real.differentiable_sinh.differentiableOn
    · rw [Real.deriv_sinh]; exact Real.differentiable_cosh.differentiableOn
    · intro x hx
      simp only [Function.iterate_succ, Function.iterate_zero, Function.comp, id]
      rw [Real.deriv_sinh, Real.deriv_cosh]
      rw [interior_Ici] at hx
      exact Real.sinh_nonneg_iff.2 (le_of_lt hx)
  have h := hconv.2 (show w ∈ Ici (0:ℝ) from hw.le) (show (0:ℝ) ∈ Ici (0:ℝ) from Set.mem_Ici.2 le_rfl) (show (0:ℝ) ≤ p / w by positivity)
    (show 0 ≤ 1 - p / w by rw [sub_nonneg, div_le_one hw]; exact hpw) (by ring)
  simp only [smul_eq_mul, mul_zero, add_zero, Real.sinh_zero] at h
  rw [div_mul_cancel₀ _ hw.ne', div_mul_eq_mul_div, le_div_iff₀ hw] at h
  linarith

/-- The margin of the diagonal for high tensions. -/
theorem margin_high {tau h : ℝ} (hh : 0 < h) (ht : 4 / h ≤ tau) :
    tau / 2 ≤ tau * (Real.cosh (tau * h) / Real.sinh (tau * h)) - 1 / h - (1 / h - tau / Real.sinh (tau * h)) := by
  have t0 : 0 < tau := lt_of_lt_of_le (by positivity) ht
  have hw : 0 < tau * h := mul_pos t0 hh
  have c := one_le_coth hw
  have s : 0 < tau / Real.sinh (tau * h) := div_pos t0 (Real.sinh_pos_iff.2 hw)
  have q : 1 / h ≤ tau / 4 := by
    rw [div_le_iff₀ hh] at ht ⊢; linarith
  nlinarith

theorem piece_high (f : Func) {tau x B : ℝ} (ht : 0 < tau) (h : f.x0 < f.xf) (hx : x ∈ Icc f.x0 f.xf)
    (h0 : |f.z0| ≤ B) (hf : |f.zf| ≤ B) :
    |f.value tau x - (f.y0 + (f.yf - f.y0) * ((x - f.x0) / (f.xf - f.x0)))| ≤ B / (tau * tau) := by
  have hp : 0 < f.xf - f.x0 := sub_pos.2 h
  have hw : 0 < tau * (f.xf - f.x0) := mul_pos ht hp
  have hs : 0 < Real.sinh (tau * (f.xf - f.x0)) := Real.sinh_pos_iff.2 hw
  have tt : 0 < tau * tau := mul_pos ht ht
  set S := Real.sinh (tau * (f.xf - f.x0)) with hS
  set d := f.xf - f.x0 with hd
  have key : ∀ r, 0 ≤ r → r ≤ d → 0 ≤ r / d - Real.sinh (tau * r) / S ∧ r / d - Real.sinh (tau * r) / S ≤ r / d := by
    intro r r0 r1
    have := sinh_mul_le (p := tau * r) (w := tau * d) (by positivity) (by gcongr)
    constructor
    · rw [sub_nonneg, div_le_div_iff₀ hs hp]
      have := mul_le_mul_of_nonneg_left this (inv_pos.2 ht).le
      rw [show tau⁻¹ * (tau * d * Real.sinh (tau * r)) = Real.sinh (tau * r) * d by field_simp,
        show tau⁻¹ * (tau * r * Real.sinh (tau * d)) = r * Real.sinh (tau * d) by field_simp] at this
      exact this
    · have : 0 ≤ Real.sinh (tau * r) / S := div_nonneg (Real.sinh_nonneg_iff.2 (by positivity)) hs.le
      linarith
  obtain ⟨a1, a2⟩ := key (f.xf - x) (by linarith [hx.2]) (by rw [hd]; linarith [hx.1])
  obtain ⟨b1, b2⟩ := key (x - f.x0) (by linarith [hx.1]) (by rw [hd]; linarith [hx.2])
  have e : f.value tau x - (f.y0 + (f.yf - f.y0) * ((x - f.x0) / d)) =
      -(f.z0 * ((f.xf - x) / d - Real.sinh (tau * (f.xf - x)) / S) +
        f.zf * ((x - f.x0) / d - Real.sinh (tau * (x - f.x0)) / S)) / (tau * tau) := by
    have eu : f.xf - x = d - (x - f.x0) := by rw [hd]; ring
    unfold Func.value
    simp only [← hd, ← hS]
    generalize Real.sinh (tau * (f.xf - x)) = s1
    generalize Real.sinh (tau * (x - f.x0)) = s2
    rw [eu]
    field_simp
    ring
  have B0 : 0 ≤ B := (abs_nonneg _).trans h0
  rw [e, abs_div, abs_neg, abs_of_pos tt]
  apply div_le_div_of_nonneg_right _ tt.le
  have sum : (f.xf - x) / d + (x - f.x0) / d = 1 := by rw [← add_div, hd]; rw [div_eq_one_iff_eq (by rw [← hd]; exact hp.ne')]; ring
  calc _ ≤ |f.z0 * ((f.xf - x) / d - Real.sinh (tau * (f.xf - x)) / S)| +
        |f.zf * ((x - f.x0) / d - Real.sinh (tau * (x - f.x0)) / S)| := abs_add_le _ _
    _ = |f.z0| * ((f.xf - x) / d - Real.sinh (tau * (f.xf - x)) / S) +
        |f.zf| * ((x - f.x0) / d - Real.sinh (tau * (x - f.x0)) / S) := by
        rw [abs_mul, abs_mul, abs_of_nonneg a1, abs_of_nonneg b1]
    _ ≤ B * ((f.xf - x) / d) + B * ((x - f.x0) / d) := by
        apply add_le_add
        · exact mul_le_mul h0 a2 a1 B0
        · exact mul_le_mul hf b2 b1 B0
    _ = B := by rw [← mul_add, sum, mul_one]

theorem at_of_getElem? {l : List ℝ} {i : ℕ} {a : ℝ} (h : l[i]? = some a) : at' l i = a := by
  rw [at', List.getD_eq_getElem?_getD, h]; rfl

theorem getElem?_at {l : List ℝ} {i : ℕ} (h : i < l.length) : l[i]? = some (at' l i) := by
  rw [at_getElem h]; exact List.getElem?_eq_getElem h

theorem Solved.high {mode : Mode} {xs ys : List ℝ} {tau : ℝ} {m : ℕ} {z : ℕ → ℝ} {s : Spline}
    (h : Solved mode xs ys tau m z s) {h0 J : ℝ} (hh : 0 < h0) (ht : 4 / h0 ≤ tau)
    (hx : ∀ i, i < m + 2 → h0 ≤ hAt (at' xs) i)
    (hJ : ∀ i, i < m + 1 → |(at' ys (i + 2) - at' ys (i + 1)) / hAt (at' xs) (i + 1) -
      (at' ys (i + 1) - at' ys i) / hAt (at' xs) i| ≤ J) :
    ∀ k, k ≤ m + 2 → |z k| ≤ tau * J := by
  have t0 : 0 < tau := lt_of_lt_of_le (by positivity) ht
  have hc : ∀ i, i < m + 2 → tau / 2 ≤ betaAt tau (at' xs) i - aAt tau (at' xs) i := by
    intro i hi
    have p := lt_of_lt_of_le hh (hx i hi)
    exact margin_high p ((div_le_div_of_nonneg_left (by norm_num) hh (hx i hi)).trans ht)
  obtain ⟨i, hi, hmax⟩ := exists_peak z m h.first h.last
  have hp := h.peak t0 hc hi hmax
  have e : gammaAt tau (at' xs) (at' ys) (i + 1) - gammaAt tau (at' xs) (at' ys) i =
      tau * tau * ((at' ys (i + 2) - at' ys (i + 1)) / hAt (at' xs) (i + 1) - (at' ys (i + 1) - at' ys i) / hAt (at' xs) i) := by
    unfold gammaAt; ring
  rw [e, abs_mul, abs_of_pos (mul_pos t0 t0)] at hp
  intro k hk
  refine (hmax k hk).trans ?_
  have hb := hJ i hi
  have : tau * |z (i + 1)| ≤ tau * (tau * J) := by nlinarith
  exact le_of_mul_le_mul_left this t0

end Ecl.TensionSpline
