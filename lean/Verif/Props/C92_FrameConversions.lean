import Verif.Lemmas.FrameConversions
import Verif.Props.C51_Angle
import Mathlib.Tactic.NormNum
import Mathlib.Tactic.LinearCombination

/-!
# C92: conversions between planar poses, frames and quaternions
-/
set_option autoImplicit false
set_option linter.unusedSimpArgs false

namespace Ecl.Props
open Ecl.Frames Ecl.Spec Ecl.Angle
open Real (pi)

/-- From a planar pose to space and back: the same position, and the heading in (-π, π]. -/
theorem C92_pose_round_trip (p : Pose.XYH) :
    (toPose2D (toPose3D p)).x = p.x ∧ (toPose2D (toPose3D p)).y = p.y ∧
      -pi < (toPose2D (toPose3D p)).h ∧ (toPose2D (toPose3D p)).h ≤ pi ∧
      SameDirection (toPose2D (toPose3D p)).h p.h ∧ (-pi < p.h → p.h ≤ pi → toPose2D (toPose3D p) = p) := by
  rw [toPose3D_eq, toPose2D_embed]
  obtain ⟨h1, h2, h3⟩ := arg_exp p.h
  refine ⟨rfl, rfl, h1, h2, h3, fun h4 h5 => ?_⟩
  refine Pose.XYH.ext rfl rfl ?_
  exact Circle.arg_exp h4 h5

example : toPose2D (toPose3D ⟨3, 4, 1⟩) = ⟨3, 4, 1⟩ :=
  (C92_pose_round_trip _).2.2.2.2.2 (by show -pi < 1; linarith [Real.pi_pos])
    (by show (1 : ℝ) ≤ pi; linarith [Real.two_le_pi])

/-- From space to the plane and back: the frames that survive are exactly the planar ones. -/
theorem C92_frame_round_trip_partial (T : SE3) : toPose3D (toPose2D T) = T ↔ IsPlanar T := by
  constructor
  · intro h
    rw [← h, toPose3D_eq]
    exact (isPlanar_iff _).2 ⟨_, rfl⟩
  · intro h
    obtain ⟨a, rfl⟩ := (isPlanar_iff _).1 h
    rw [toPose2D_embed, toPose3D_eq]
    congr 1
    exact Rigid.ext (Circle.exp_arg _) rfl

example : IsPlanar (toPose3D ⟨3, 4, 1⟩) := (C92_frame_round_trip_partial _).1 (by
  rw [(C92_pose_round_trip ⟨3, 4, 1⟩).2.2.2.2.2 (by show -pi < 1; linarith [Real.pi_pos])
    (by show (1 : ℝ) ≤ pi; linarith [Real.two_le_pi])])

/-- The height is lost: two different frames have the same planar pose. -/
theorem C92_fails_frame_round_trip : ∃ S T : SE3, S ≠ T ∧ toPose2D S = toPose2D T := by
  refine ⟨⟨1, (0, 0)⟩, ⟨1, (0, 1)⟩, fun h => ?_, rfl⟩
  have := congrArg (fun T : SE3 => T.trans.2) h
  norm_num at this

/-- Concatenation of planar poses is the composition of the frames. -/
theorem C92_concatenate (a b : Pose.XYH) :
    toPose3D (Pose.concatenate a b) = toPose3D a * toPose3D b := by
  rw [toPose3D_eq, toPose3D_eq, toPose3D_eq, ← embed_mul]
  congr 1
  refine Rigid.ext ?_ ?_
  · show Circle.exp (wrapAngle (a.h + b.h)) = Circle.exp a.h * Circle.exp b.h
    rw [← Circle.exp_add]
    obtain ⟨k, hk⟩ := (C51_wrap (a.h + b.h)).2.2.1
    rw [Circle.exp_eq_exp]
    exact ⟨k, hk⟩
  · show (⟨a.x + Real.cos a.h * b.x - Real.sin a.h * b.y, a.y + Real.sin a.h * b.x + Real.cos a.h * b.y⟩ : ℂ) =
      ⟨a.x, a.y⟩ + (Circle.exp a.h : ℂ) * ⟨b.x, b.y⟩
    rw [Circle.coe_exp]
    refine Complex.ext ?_ ?_
    · simp only [Complex.add_re, Complex.mul_re, Complex.exp_ofReal_mul_I_re, Complex.exp_ofReal_mul_I_im]
      ring
    · simp only [Complex.add_im, Complex.mul_im, Complex.exp_ofReal_mul_I_re, Complex.exp_ofReal_mul_I_im]
      ring

/-- The frame of a line stays in the plane, sits at the first point and has the second on its x axis. -/
theorem C92_line (fx fy tx ty : ℝ) :
    IsPlanar (lineFrame fx fy tx ty) ∧ (lineFrame fx fy tx ty).apply (0, 0) = (⟨fx, fy⟩, 0) ∧
      (lineFrame fx fy tx ty).apply (⟨Real.sqrt ((tx - fx) ^ 2 + (ty - fy) ^ 2), 0⟩, 0) = (⟨tx, ty⟩, 0) := by
  refine ⟨(isPlanar_iff _).2 ⟨⟨_, ⟨fx, fy⟩⟩, rfl⟩, ?_, ?_⟩
  · show ((⟨fx, fy⟩, 0) : Space) + rz _ • ((0, 0) : Space) = _
    rw [smul_rz]
    simp
  · show ((⟨fx, fy⟩, 0) : Space) + rz (Circle.exp (atan2 (ty - fy) (tx - fx))) • _ = _
    rw [smul_rz]
    refine Prod.ext ?_ (by simp)
    show (⟨fx, fy⟩ : ℂ) + (Circle.exp (atan2 (ty - fy) (tx - fx)) : ℂ) * _ = ⟨tx, ty⟩
    have hn : Real.sqrt ((tx - fx) ^ 2 + (ty - fy) ^ 2) = ‖(⟨tx - fx, ty - fy⟩ : ℂ)‖ := by
      rw [Complex.norm_def, Complex.normSq_mk]
      congr 1
      ring
    have h := Complex.norm_mul_exp_arg_mul_I ⟨tx - fx, ty - fy⟩
    rw [hn, Circle.coe_exp]
    unfold atan2
    have h2 : (⟨‖(⟨tx - fx, ty - fy⟩ : ℂ)‖, 0⟩ : ℂ) = (‖(⟨tx - fx, ty - fy⟩ : ℂ)‖ : ℂ) := rfl
    rw [h2, mul_comm, h]
    refine Complex.ext ?_ ?_ <;> simp

/-- The quaternion of a planar rotation has length one and rotates as the rotation does, and every
quaternion that does so is this one or its negative. -/
theorem C92_quaternion (θ : ℝ) :
    (convert θ).x ^ 2 + (convert θ).y ^ 2 + (convert θ).z ^ 2 + (convert θ).w ^ 2 = 1 ∧
      (∀ v, quatRotate (convert θ).x (convert θ).y (convert θ).z (convert θ).w v =
        (⟨Real.cos θ * v.1.re - Real.sin θ * v.1.im, Real.sin θ * v.1.re + Real.cos θ * v.1.im⟩, v.2)) ∧
      ∀ q : Quat, q.x ^ 2 + q.y ^ 2 + q.z ^ 2 + q.w ^ 2 = 1 →
        (∀ v, quatRotate q.x q.y q.z q.w v = rz (Circle.exp θ) v) →
        q = convert θ ∨ q = ⟨-(convert θ).x, -(convert θ).y, -(convert θ).z, -(convert θ).w⟩ := by
  have hs := Real.sin_sq_add_cos_sq (θ / 2)
  have hθ : θ = 2 * (θ / 2) := by ring
  have hsin : Real.sin θ = 2 * Real.sin (θ / 2) * Real.cos (θ / 2) := by
    conv_lhs => rw [hθ]
    rw [Real.sin_two_mul]
  have hcos : Real.cos θ = 2 * Real.cos (θ / 2) ^ 2 - 1 := by
    conv_lhs => rw [hθ]
    rw [Real.cos_two_mul]
  refine ⟨?_, ?_, ?_⟩
  · show (0 : ℝ) ^ 2 + 0 ^ 2 + Real.sin (θ / 2) ^ 2 + Real.cos (θ / 2) ^ 2 = 1
    linarith
  · intro v
    unfold quatRotate convert
    simp only
    rw [hsin, hcos]
    refine Prod.ext (Complex.ext ?_ ?_) ?_
    · simp only
      linear_combination (-2 * v.1.re) * hs
    · simp only
      linear_combination (-2 * v.1.im) * hs
    · simp only
      ring
  · intro q hq h
    have e1 := h (1, 0)
    have e3 := h (0, 1)
    rw [rz_apply] at e1 e3
    have a1 := congrArg (fun u : Space => u.1.re) e1
    have a2 := congrArg (fun u : Space => u.1.im) e1
    have a3 := congrArg (fun u : Space => u.2) e3
    simp [quatRotate, Circle.coe_exp, Complex.exp_ofReal_mul_I_re, Complex.exp_ofReal_mul_I_im] at a1 a2 a3
    have hx : q.x = 0 := by nlinarith [sq_nonneg q.x, sq_nonneg q.y]
    have hy : q.y = 0 := by nlinarith [sq_nonneg q.x, sq_nonneg q.y]
    rw [hx, hy] at a2 hq
    rw [hy] at a1
    rw [hsin] at a2
    rw [hcos] at a1
    have hw : q.w ^ 2 = Real.cos (θ / 2) ^ 2 := by nlinarith
    have hz : q.z ^ 2 = Real.sin (θ / 2) ^ 2 := by nlinarith
    have hwz : q.w * q.z = Real.sin (θ / 2) * Real.cos (θ / 2) := by nlinarith
    have key : (q.w - Real.cos (θ / 2)) ^ 2 + (q.z - Real.sin (θ / 2)) ^ 2 = 0 ∨
        (q.w + Real.cos (θ / 2)) ^ 2 + (q.z + Real.sin (θ / 2)) ^ 2 = 0 := by
      have : ((q.w - Real.cos (θ / 2)) ^ 2 + (q.z - Real.sin (θ / 2)) ^ 2) *
        ((q.w + Real.cos (θ / 2)) ^ 2 + (q.z + Real.sin (θ / 2)) ^ 2) = 0 := by
        have e : ((q.w - Real.cos (θ / 2)) ^ 2 + (q.z - Real.sin (θ / 2)) ^ 2) *
          ((q.w + Real.cos (θ / 2)) ^ 2 + (q.z + Real.sin (θ / 2)) ^ 2) =
          (q.w ^ 2 + Real.cos (θ / 2) ^ 2 + q.z ^ 2 + Real.sin (θ / 2) ^ 2) ^ 2 -
            4 * (q.w ^ 2 * Real.cos (θ / 2) ^ 2 + q.z ^ 2 * Real.sin (θ / 2) ^ 2 +
              2 * (q.w * q.z) * (Real.sin (θ / 2) * Real.cos (θ / 2))) := by ring
        rw [e, hw, hz, hwz]
        ring
      exact mul_eq_zero.1 this
    rcases key with key | key
    · left
      refine Quat.ext hx hy ?_ ?_
      · show q.z = Real.sin (θ / 2)
        nlinarith [sq_nonneg (q.w - Real.cos (θ / 2)), sq_nonneg (q.z - Real.sin (θ / 2))]
      · show q.w = Real.cos (θ / 2)
        nlinarith [sq_nonneg (q.w - Real.cos (θ / 2)), sq_nonneg (q.z - Real.sin (θ / 2))]
    · right
      refine Quat.ext (by rw [hx]; exact neg_zero.symm) (by rw [hy]; exact neg_zero.symm) ?_ ?_
      · show q.z = -Real.sin (θ / 2)
        nlinarith [sq_nonneg (q.w + Real.cos (θ / 2)), sq_nonneg (q.z + Real.sin (θ / 2))]
      · show q.w = -Real.cos (θ / 2)
        nlinarith [sq_nonneg (q.w + Real.cos (θ / 2)), sq_nonneg (q.z + Real.sin (θ / 2))]

/-- The two ways to convert a planar rotation do not agree, whatever the library does. -/
theorem C92_fails_quaternion (ofRotation : (Space ≃ₗ[ℝ] Space) → Quat) :
    ∃ θ, planarQuat ofRotation θ ≠ convert θ := by
  by_contra hc
  push Not at hc
  have h0 := hc 0
  have h1 := hc (2 * pi)
  unfold planarQuat at h0 h1
  rw [Circle.exp_two_pi] at h1
  rw [Circle.exp_zero] at h0
  have := congrArg Quat.w (h0.symm.trans h1)
  unfold convert at this
  simp at this
  norm_num at this

/-- A yaw turned into a quaternion and back is the same direction, and the same number if it is less than
a full turn. -/
theorem C92_yaw (yaw : ℝ) :
    (quaternion2yaw (yaw2quaternion yaw)).1 = false ∧
      SameDirection (quaternion2yaw (yaw2quaternion yaw)).2 yaw ∧
      (|yaw| < 2 * pi → (quaternion2yaw (yaw2quaternion yaw)).2 = yaw) := by
  have hpi := Real.pi_pos
  have small : ∀ y : ℝ, |y| < 2 * pi → (quaternion2yaw (yaw2quaternion y)).2 = y := by
    intro y hy
    rw [abs_lt] at hy
    unfold quaternion2yaw yaw2quaternion
    simp only
    rcases lt_trichotomy y 0 with h | h | h
    · have hs : Real.sin (y / 2) < 0 := Real.sin_neg_of_neg_of_neg_pi_lt (by linarith) (by linarith)
      rw [← Real.cos_neg, Real.arccos_cos (by linarith) (by linarith)]
      have : Math.sign (Real.sin (y / 2)) = -1 := by
        unfold Math.sign
        rw [if_neg (by linarith), if_pos hs]
      rw [this]
      push_cast
      ring
    · subst h
      simp [Math.sign]
    · have hs : 0 < Real.sin (y / 2) := Real.sin_pos_of_pos_of_lt_pi (by linarith) (by linarith)
      rw [Real.arccos_cos (by linarith) (by linarith)]
      have : Math.sign (Real.sin (y / 2)) = 1 := by
        unfold Math.sign
        rw [if_pos hs]
      rw [this]
      push_cast
      ring
  refine ⟨by simp [quaternion2yaw, yaw2quaternion], ?_, small yaw⟩
  -- by the period 4π of the quaternion
  have hper : ∀ k : ℤ, quaternion2yaw (yaw2quaternion (yaw + k * (4 * pi))) = quaternion2yaw (yaw2quaternion yaw) := by
    intro k
    have : (yaw + k * (4 * pi)) / 2 = yaw / 2 + k * (2 * pi) := by ring
    unfold yaw2quaternion
    rw [this, Real.sin_add_int_mul_two_pi, Real.cos_add_int_mul_two_pi]
  obtain ⟨k, hk⟩ : ∃ k : ℤ, -(2 * pi) ≤ yaw + k * (4 * pi) ∧ yaw + k * (4 * pi) < 2 * pi := by
    have h := existsUnique_add_zsmul_mem_Ico (show (0 : ℝ) < 4 * pi by linarith) yaw (-(2 * pi))
    obtain ⟨k, hk, -⟩ := h
    refine ⟨k, ?_⟩
    rw [zsmul_eq_mul] at hk
    exact ⟨hk.1, by have := hk.2; linarith⟩
  rw [← hper k]
  rcases hk.1.lt_or_eq with h | h
  · rw [small _ (abs_lt.2 ⟨h, hk.2⟩)]
    exact ⟨2 * k, by push_cast; ring⟩
  · rw [← h]
    refine ⟨2 * k + 1, ?_⟩
    have h0 : (quaternion2yaw (yaw2quaternion (-(2 * pi)))).2 = 0 := by
      have : -(2 * pi) / 2 = -pi := by ring
      unfold quaternion2yaw yaw2quaternion
      simp [this, Math.sign]
    rw [h0]
    push_cast
    linarith

/-- A rotation that is no yaw passes the check, and a yaw is given for it. -/
theorem C92_fails_yaw_check : ∃ q : Quat, q.x ^ 2 + q.y ^ 2 + q.z ^ 2 + q.w ^ 2 = 1 ∧
    (∀ yaw, ∃ v, quatRotate q.x q.y q.z q.w v ≠ rz (Circle.exp yaw) v) ∧ quaternion2yaw q = (false, 0) := by
  refine ⟨⟨1, 0, 0, 0⟩, by norm_num, fun yaw => ⟨(0, 1), fun h => ?_⟩, ?_⟩
  · have := congrArg Prod.snd h
    simp [quatRotate, rz_apply] at this
  · unfold quaternion2yaw
    simp [Math.sign]

end Ecl.Props
