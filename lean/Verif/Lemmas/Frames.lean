import Verif.Model.Frames
import Verif.Spec.Frames
import Mathlib.Tactic.LinearCombination
import Mathlib.Tactic.FieldSimp

/-! # Lemmas about frames -/
set_option autoImplicit false
set_option linter.unusedSimpArgs false

namespace Ecl.Frames
open Ecl.Spec

theorem OneParameter.zero {G V : Type} [Group G] [AddCommGroup V] [Module ℝ V] {exp : V → G}
    (h : OneParameter exp) (v : V) : exp ((0 : ℝ) • v) = 1 := by
  have := h 0 0 v
  rw [add_zero] at this
  exact left_eq_mul.1 this

theorem vfac_mul (θ : ℝ) : vfac θ * (θ * Complex.I) = Circle.exp θ - 1 := by
  have e : (Circle.exp θ : ℂ) = ⟨Real.cos θ, Real.sin θ⟩ := by
    rw [Circle.coe_exp, Complex.exp_mul_I]
    apply Complex.ext
    · simp [Complex.cos_ofReal_re, Complex.sin_ofReal_im]
    · simp [Complex.cos_ofReal_im, Complex.sin_ofReal_re]
  rw [e]
  by_cases h : θ = 0
  · subst h
    apply Complex.ext <;> simp
  · rw [vfac, if_neg h]
    apply Complex.ext
    · simp
      field_simp
      ring
    · simp
      field_simp

theorem vfac_ne_zero {θ : ℝ} (h1 : -Real.pi < θ) (h2 : θ ≤ Real.pi) : vfac θ ≠ 0 := by
  by_cases h : θ = 0
  · subst h; simp [vfac]
  · intro h0
    have := vfac_mul θ
    rw [h0, zero_mul] at this
    have h3 : Circle.exp θ = 1 := by
      apply Circle.ext
      rw [Circle.coe_one]
      linear_combination -this
    have h4 := Circle.arg_exp h1 h2
    rw [h3, Circle.coe_one, Complex.arg_one] at h4
    exact h h4.symm

theorem se2_one_parameter : OneParameter se2Exp := by
  intro s t v
  obtain ⟨u, θ⟩ := v
  apply Rigid.ext
  · show Circle.exp ((s + t) * θ) = Circle.exp (s * θ) * Circle.exp (t * θ)
    rw [add_mul, Circle.exp_add]
  · show vfac ((s + t) * θ) * (((s + t : ℝ)) • u) =
      vfac (s * θ) * (s • u) + Circle.exp (s * θ) • (vfac (t * θ) * (t • u))
    rw [Circle.smul_def]
    simp only [Complex.real_smul, smul_eq_mul]
    by_cases h : θ = 0
    · subst h
      simp [vfac]
      ring
    · have hI : (θ : ℂ) * Complex.I ≠ 0 := by simp [h]
      have h1 := vfac_mul ((s + t) * θ)
      have h2 := vfac_mul (s * θ)
      have h3 := vfac_mul (t * θ)
      rw [add_mul, Circle.exp_add, Circle.coe_mul] at h1
      rw [← add_mul] at h1
      apply mul_right_cancel₀ hI
      push_cast at h1 h2 h3 ⊢
      linear_combination u * h1 - u * h2 - Complex.exp (s * θ * Complex.I) * u * h3

theorem se2_exp_log (a : SE2) : se2Exp (se2Log a) = a := by
  apply Rigid.ext
  · exact Circle.exp_arg a.rot
  · show vfac (Complex.arg a.rot) * (a.trans / vfac (Complex.arg a.rot)) = a.trans
    rw [mul_div_cancel₀]
    exact vfac_ne_zero (Complex.neg_pi_lt_arg _) (Complex.arg_le_pi _)

theorem rz_apply (c : Circle) (v : Space) : rz c v = (c * v.1, v.2) := rfl

theorem rz_inv (c : Circle) : (rz c)⁻¹ = rz c⁻¹ := by
  rw [inv_eq_iff_mul_eq_one]
  apply LinearEquiv.ext
  intro v
  show rz c (rz c⁻¹ v) = v
  rw [rz_apply, rz_apply]
  simp [← mul_assoc]

theorem rz_mul (c d : Circle) : rz (c * d) = rz c * rz d := by
  apply LinearEquiv.ext
  intro v
  show rz (c * d) v = rz c (rz d v)
  simp [rz_apply, mul_assoc]

theorem rz_injective {c d : Circle} (h : rz c = rz d) : c = d := by
  have := congrArg (fun f : Space ≃ₗ[ℝ] Space => (f (1, 0)).1) h
  simp only [rz_apply, mul_one] at this
  exact Circle.ext this

theorem smul_rz (c : Circle) (v : Space) : rz c • v = (c * v.1, v.2) := rfl

theorem embed_inv (a : SE2) : (embed a)⁻¹ = embed a⁻¹ := by
  apply Rigid.ext
  · exact rz_inv a.rot
  · show -((rz a.rot)⁻¹ • ((a.trans, 0) : Space)) = _
    rw [rz_inv, smul_rz]
    simp [embed, Circle.smul_def]

theorem embed_mul (a b : SE2) : embed (a * b) = embed a * embed b := by
  apply Rigid.ext
  · exact rz_mul a.rot b.rot
  · show ((a * b).trans, (0 : ℝ)) = _
    show _ = ((a.trans, 0) : Space) + rz a.rot • ((b.trans, 0) : Space)
    rw [smul_rz]
    simp [Circle.smul_def]

theorem embed_one : embed 1 = 1 := by
  apply Rigid.ext
  · apply LinearEquiv.ext
    intro v
    show rz 1 v = v
    simp [rz_apply]
  · rfl

theorem isPlanar_iff (T : SE3) : IsPlanar T ↔ ∃ a : SE2, T = embed a := by
  constructor
  · rintro ⟨c, u, h⟩
    refine ⟨⟨c, u⟩, ?_⟩
    have h0 : T.trans = (u, 0) := by
      have := h 0
      simpa [Rigid.apply] using this
    apply Rigid.ext
    · apply LinearEquiv.ext
      intro v
      have h1 := h v
      simp only [Rigid.apply, h0] at h1
      show T.rot v = rz c v
      have h2 : ((u, 0) : Space) + T.rot v = (u + c * v.1, v.2) := h1
      rw [rz_apply]
      have h3 := congrArg Prod.fst h2
      have h4 := congrArg Prod.snd h2
      simp only [Prod.fst_add, Prod.snd_add, zero_add] at h3 h4
      exact Prod.ext (add_left_cancel h3) h4
    · exact h0
  · rintro ⟨a, rfl⟩
    refine ⟨a.rot, a.trans, fun p => ?_⟩
    show ((a.trans, 0) : Space) + rz a.rot • p = _
    rw [smul_rz]
    simp

theorem embed_exp_arg (a : SE2) :
    (⟨rz (Circle.exp (Complex.arg a.rot)), (a.trans, 0)⟩ : SE3) = embed a := by
  rw [Circle.exp_arg]
  rfl

theorem Planar.at_eq (p : Planar) (t : ℝ) : p.at t = embed (se2Exp (t • p.tangent)) * p.Ta := by
  unfold Planar.at
  simp only
  rw [embed_exp_arg, embed_inv, inv_inv]

end Ecl.Frames
