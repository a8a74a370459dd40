import Verif.Model.DifferentialDrive
import Verif.Props.C62_Pose

/-! # C63: differential drive kinematics -/
set_option autoImplicit false
set_option linter.unusedSimpArgs false

namespace Ecl.Props
open Ecl Ecl.DiffDrive Ecl.Pose Ecl.Angle Ecl.Spec Real

/-- **C63.** Driving the wheels at the rates of `baseToWheelVelocities` moves the base as commanded:
forward by the linear motion, not sideways, turned by the angular motion (wrapped); the update equals
that of `poseUpdateFromBaseDifferential`. -/
theorem C63_round_trip (axle radius v w : ℝ) (ha : axle ≠ 0) (hr : radius ≠ 0) :
    let d := make axle radius
    let rates := baseToWheel d v w
    let u := poseUpdateFromWheel d rates.1 rates.2
    u.x = v ∧ u.y = 0 ∧ SameDirection u.h w ∧ -π ≤ u.h ∧ u.h ≤ π ∧ (-π ≤ w → w ≤ π → u.h = w) ∧
    u = poseUpdateFromBase d v w := by
  intro d rates u
  have e : u = poseUpdateFromBase d v w := by
    simp only [u, rates, d, make, baseToWheel, poseUpdateFromWheel, poseUpdateFromBase]
    apply XYH.ext
    · simp only; field_simp; ring
    · rfl
    · simp only; congr 1; field_simp; ring
  have W := C51_wrap w
  refine ⟨by rw [e]; rfl, by rw [e]; rfl, ?_, ?_, ?_, ?_, e⟩ <;> rw [e] <;>
    simp only [poseUpdateFromBase]
  · exact W.2.2.1
  · exact W.1
  · exact W.2.1
  · exact W.2.2.2

/-- **C63.** The other way round: the rates for the motion that turning the wheels by `l` and `r` causes
(before wrapping the angle) are `l` and `r`; they are the only ones that cause it. -/
theorem C63_rates (axle radius l r v w : ℝ) (ha : axle ≠ 0) (hr : radius ≠ 0) :
    baseToWheel (make axle radius) (radius * (l + r) / 2) (radius * (r - l) / axle) = (l, r) ∧
    (baseToWheel (make axle radius) v w = (l, r) ↔ v = radius * (l + r) / 2 ∧ w = radius * (r - l) / axle) := by
  have h1 : baseToWheel (make axle radius) (radius * (l + r) / 2) (radius * (r - l) / axle) = (l, r) := by
    simp only [baseToWheel, make]
    apply Prod.ext
    · simp only; field_simp; ring
    · simp only; field_simp; ring
  refine ⟨h1, ⟨?_, ?_⟩⟩
  · intro h
    simp only [baseToWheel, make, Prod.mk.injEq] at h
    obtain ⟨h2, h3⟩ := h
    rw [h3] at h2
    have e1 : 2 * v = (l + r) * radius := by
      have : 2 * v / radius = l + r := by linarith
      field_simp at this; linarith
    have e2 : 2 * v + w * axle = r * (2 * radius) := by
      field_simp at h3; linarith
    refine ⟨by linarith, ?_⟩
    rw [eq_div_iff ha]; linarith
  · rintro ⟨rfl, rfl⟩; exact h1

/-- **C63.** A pose extended by a pure base motion: `PoseToBaseDifferential` reads the motion back, the
turn up to whole turns. -/
theorem C63_base_differential (d : Drive) (a : XYH) (s t : ℝ) :
    let m := poseToBase a (concatenate a (poseUpdateFromBase d s t))
    m.1 = s ∧ SameDirection m.2 t ∧ -π ≤ m.2 ∧ m.2 ≤ π ∧ (-π < t → t < π → m.2 = t) := by
  intro m
  have hw := (wrap_same a.h)
  have hcs := sin_sq_add_cos_sq a.h
  have hsd : SameDirection m.2 t := by
    have h1 : SameDirection m.2 ((concatenate a (poseUpdateFromBase d s t)).h - a.h) := wrap_same _
    have h2 := (C62_concatenate a (poseUpdateFromBase d s t)).2.1
    have h3 : SameDirection (poseUpdateFromBase d s t).h t := wrap_same t
    have h4 := h2.add (sameDirection_refl (-a.h))
    have e : a.h + (poseUpdateFromBase d s t).h + -a.h = (poseUpdateFromBase d s t).h := by ring
    rw [e, ← sub_eq_add_neg] at h4
    exact sameDirection_trans h1 (sameDirection_trans h4 h3)
  have hb1 : -π ≤ m.2 := (C51_wrap _).1
  have hb2 : m.2 ≤ π := (C51_wrap _).2.1
  refine ⟨?_, hsd, hb1, hb2, ?_⟩
  · have r0 : (cos a.h) / (cos a.h * cos a.h - -sin a.h * sin a.h) = cos a.h := by
      have : cos a.h * cos a.h - -sin a.h * sin a.h = 1 := by linarith
      rw [this, div_one]
    have det : cos a.h * cos a.h - -sin a.h * sin a.h = 1 := by linarith
    have hm : m.1 = (if cos a.h * (cos a.h * s) + sin a.h * (sin a.h * s) < 0
        then -sqrt ((cos a.h * (cos a.h * s) + sin a.h * (sin a.h * s)) ^ 2 + (-sin a.h * (cos a.h * s) + cos a.h * (sin a.h * s)) ^ 2)
        else sqrt ((cos a.h * (cos a.h * s) + sin a.h * (sin a.h * s)) ^ 2 + (-sin a.h * (cos a.h * s) + cos a.h * (sin a.h * s)) ^ 2)) := by
      simp only [m, poseToBase, concatenate, poseUpdateFromBase, inverse2, ofReal, rotationMatrix, hw.cos_eq,
        hw.sin_eq, det, div_one, mul_zero, sub_zero, add_zero, add_sub_cancel_left, neg_neg, pow_two]
    have e0 : cos a.h * (cos a.h * s) + sin a.h * (sin a.h * s) = s := by linear_combination s * hcs
    have e1 : -sin a.h * (cos a.h * s) + cos a.h * (sin a.h * s) = 0 := by ring
    rw [hm, e0, e1]
    have : s ^ 2 + 0 ^ 2 = s ^ 2 := by ring
    rw [this, sqrt_sq_eq_abs]
    split
    next h => rw [abs_of_neg h]; ring
    next h => rw [abs_of_nonneg (not_lt.1 h)]
  · intro h1 h2
    obtain ⟨k, hk⟩ := hsd
    have hp := pi_pos
    rw [hk] at hb1 hb2
    have hk0 : k = 0 := by
      have e1 : (-1 : ℝ) < k := by
        by_contra hc; push_neg at hc; nlinarith
      have e2 : (k : ℝ) < 1 := by
        by_contra hc; push_neg at hc; nlinarith
      have e1' : -1 < k := by exact_mod_cast e1
      have e2' : k < 1 := by exact_mod_cast e2
      omega
    rw [hk, hk0]; simp

/-- A robot with axle 1/2 and wheels of radius 1/10 told to drive and turn. -/
example : (poseUpdateFromWheel (make (1 / 2) (1 / 10)) (baseToWheel (make (1 / 2) (1 / 10)) 3 1).1
    (baseToWheel (make (1 / 2) (1 / 10)) 3 1).2).h = 1 :=
  (C63_round_trip (1 / 2) (1 / 10) 3 1 (by norm_num) (by norm_num)).2.2.2.2.2.1
    (by linarith [pi_pos]) (by linarith [two_le_pi])

end Ecl.Props
