import Verif.Props.C92_FrameConversions

/-!
# C92: which quaternions `quaternion2yaw` accepts
-/
set_option autoImplicit false

namespace Ecl.Props
open Ecl.Frames Ecl.Spec Ecl.Angle
open Real (pi)

/-- The rotation of a quaternion around the z axis. -/
private theorem turn (φ : ℝ) (v : Space) :
    quatRotate 0 0 (Real.sin φ) (Real.cos φ) v = rz (Circle.exp (2 * φ)) v := by
  rw [rz_apply]
  have h := Real.sin_sq_add_cos_sq φ
  have e1 : Real.cos (2 * φ) = 1 - 2 * (Real.sin φ * Real.sin φ) := by rw [Real.cos_two_mul]; nlinarith
  have e2 := Real.sin_two_mul φ
  refine Prod.ext (Complex.ext ?_ ?_) ?_
  · simp only [quatRotate, Circle.coe_exp, Complex.mul_re, Complex.exp_ofReal_mul_I_re, Complex.exp_ofReal_mul_I_im, e1, e2]
    ring
  · simp only [quatRotate, Circle.coe_exp, Complex.mul_im, Complex.exp_ofReal_mul_I_re, Complex.exp_ofReal_mul_I_im, e1, e2]
    ring
  · simp [quatRotate]

/-- A pair of numbers on the unit circle. -/
private theorem circle (z w : ℝ) (h : z ^ 2 + w ^ 2 = 1) : ∃ φ, Real.sin φ = z ∧ Real.cos φ = w := by
  have hn : ‖(⟨w, z⟩ : ℂ)‖ = 1 := by
    rw [Complex.norm_def, Complex.normSq_mk, show w * w + z * z = 1 by linarith [sq z, sq w], Real.sqrt_one]
  have h0 : (⟨w, z⟩ : ℂ) ≠ 0 := by
    intro e
    rw [e, norm_zero] at hn
    exact zero_ne_one hn
  refine ⟨Complex.arg ⟨w, z⟩, ?_, ?_⟩
  · rw [Complex.sin_arg, hn, div_one]
  · rw [Complex.cos_arg h0, hn, div_one]

/-- **C92**: a unit quaternion is one of a yaw exactly if two of its components are zero; then it is accepted, and the number
computed turns as the quaternion does. A quaternion is accepted wrongly exactly if one of these two components is zero and the
other is not. -/
theorem C92_yaw_check (q : Quat) (hq : q.x ^ 2 + q.y ^ 2 + q.z ^ 2 + q.w ^ 2 = 1) :
    ((∃ yaw, ∀ v, quatRotate q.x q.y q.z q.w v = rz (Circle.exp yaw) v) →
      (quaternion2yaw q).1 = false ∧
      ∀ v, quatRotate q.x q.y q.z q.w v = rz (Circle.exp (quaternion2yaw q).2) v) ∧
    (((quaternion2yaw q).1 = false ∧ ¬ ∃ yaw, ∀ v, quatRotate q.x q.y q.z q.w v = rz (Circle.exp yaw) v) ↔
      (q.x = 0 ∧ q.y ≠ 0 ∨ q.x ≠ 0 ∧ q.y = 0)) := by
  have good : q.x = 0 → q.y = 0 → (quaternion2yaw q).1 = false ∧
      ∀ v, quatRotate q.x q.y q.z q.w v = rz (Circle.exp (quaternion2yaw q).2) v := by
    intro hx hy
    rw [hx, hy] at hq
    obtain ⟨φ, h1, h2⟩ := circle q.z q.w (by linarith)
    have hy2 : yaw2quaternion (2 * φ) = q := by
      unfold yaw2quaternion
      rw [mul_div_cancel_left₀ φ (two_ne_zero' ℝ), h1, h2, ← hx]
      nth_rewrite 2 [hx]
      rw [← hy]
    obtain ⟨a, ⟨k, hk⟩, -⟩ := C92_yaw (2 * φ)
    rw [hy2] at a hk
    refine ⟨a, fun v => ?_⟩
    have : Circle.exp (quaternion2yaw q).2 = Circle.exp (2 * φ) := by
      rw [hk]
      exact Circle.periodic_exp.int_mul k _
    rw [this, ← turn φ v, hx, hy, h1, h2]
  have only : (∃ yaw, ∀ v, quatRotate q.x q.y q.z q.w v = rz (Circle.exp yaw) v) → q.x = 0 ∧ q.y = 0 := by
    rintro ⟨yaw, h⟩
    have := congrArg Prod.snd (h (0, 1))
    simp only [quatRotate, rz_apply, Complex.zero_re, Complex.zero_im] at this
    have h1 := mul_self_nonneg q.x
    have h2 := mul_self_nonneg q.y
    constructor
    · exact mul_self_eq_zero.1 (by linarith)
    · exact mul_self_eq_zero.1 (by linarith)
  refine ⟨fun h => good (only h).1 (only h).2, ?_⟩
  have hc : (quaternion2yaw q).1 = false ↔ ¬ (q.x ≠ 0 ∧ q.y ≠ 0) := by
    unfold quaternion2yaw
    simp only [decide_eq_false_iff_not]
  rw [hc]
  constructor
  · rintro ⟨h1, h2⟩
    by_cases hx : q.x = 0
    · refine .inl ⟨hx, fun hy => h2 ⟨_, (good hx hy).2⟩⟩
    · exact .inr ⟨hx, by by_contra hy; exact h1 ⟨hx, hy⟩⟩
  · rintro (⟨h1, h2⟩ | ⟨h1, h2⟩)
    · exact ⟨fun h => h.1 h1, fun h => h2 (only h).2⟩
    · exact ⟨fun h => h.2 h2, fun h => h1 (only h).1⟩

/-- Quaternions of all three kinds. -/
example : (0 : ℝ) ^ 2 + 0 ^ 2 + (3 / 5) ^ 2 + (4 / 5) ^ 2 = 1 ∧ (3 / 5 : ℝ) ^ 2 + 0 ^ 2 + 0 ^ 2 + (4 / 5) ^ 2 = 1 ∧
    (1 / 2 : ℝ) ^ 2 + (1 / 2) ^ 2 + (1 / 2) ^ 2 + (1 / 2) ^ 2 = 1 := by norm_num

end Ecl.Props
