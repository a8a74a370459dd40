import Verif.Lemmas.Angle
import Verif.Spec.Angle
import Mathlib.Analysis.SpecialFunctions.Complex.Arg
import Mathlib.Tactic.Linarith
import Mathlib.Tactic.LinearCombination

/-! # C51: wrapped angles -/
set_option autoImplicit false

namespace Ecl.Props
open Ecl Ecl.Angle Real

/-- **C51.** `wrap_angle` gives an angle in [-π, π], in the same direction as its argument, and
leaves an angle of that range alone. -/
theorem C51_wrap (a : ℝ) :
    -π ≤ wrapAngle a ∧ wrapAngle a ≤ π ∧ SameDirection (wrapAngle a) a ∧
    (-π ≤ a → a ≤ π → wrapAngle a = a) := by
  have hp : 0 < π := pi_pos
  have h2 : (0 : ℝ) < 2 * π := by linarith
  refine ⟨?_, ?_, ?_, fun h h' => by unfold wrapAngle; rw [if_pos ⟨h', h⟩]⟩
  · unfold wrapAngle
    split
    next h => exact h.2
    next h =>
      split
      next h0 => have := ((fmod_bounds (a - π) h2).2 (by linarith)).1; linarith
      next h0 => have := ((fmod_bounds (a + π) h2).1 (by linarith)).1; linarith
  · unfold wrapAngle
    split
    next h => exact h.1
    next h =>
      split
      next h0 => have := ((fmod_bounds (a - π) h2).2 (by linarith)).2; linarith
      next h0 => have := ((fmod_bounds (a + π) h2).1 (by linarith)).2; linarith
  · unfold wrapAngle
    split
    next h => exact ⟨0, by simp⟩
    next h =>
      split
      next h0 =>
        refine ⟨-truncQuot (a - π) (2 * π), ?_⟩
        unfold fmod; push_cast; ring
      next h0 =>
        refine ⟨-truncQuot (a + π) (2 * π), ?_⟩
        unfold fmod; push_cast; ring

/-- Outside the range an angle is moved: three quarters of a turn become minus one quarter. -/
example : wrapAngle (3 * π / 2) = -(π / 2) := by
  have hp := pi_pos
  have h := C51_wrap (3 * π / 2)
  obtain ⟨k, hk⟩ := h.2.2.1
  have h1 := h.1; have h2 := h.2.1
  rw [hk] at h1 h2
  have hk' : k = -1 := by
    have e1 : (-2 : ℝ) < k := by
      by_contra hc; push_neg at hc
      nlinarith
    have e2 : (k : ℝ) < 0 := by
      by_contra hc; push_neg at hc
      nlinarith
    have e1' : -2 < k := by exact_mod_cast e1
    have e2' : k < 0 := by exact_mod_cast e2
    omega
  rw [hk, hk']; push_cast; ring

/-- **C51.** The operations of the class `Angle` keep the stored value in [-π, π] and denote the sum,
difference and multiple of the angles up to whole turns. -/
theorem C51_class (a b k : ℝ) :
    (∀ r ∈ [ofReal a, add a b, sub a b, scale a k, addAssign a b, subAssign a b, scaleAssign a k,
            ofDegrees a, ofRadians a], -π ≤ r ∧ r ≤ π) ∧
    SameDirection (ofReal a) a ∧ SameDirection (ofRadians a) a ∧
    SameDirection (add a b) (a + b) ∧ SameDirection (addAssign a b) (a + b) ∧
    SameDirection (sub a b) (a - b) ∧ SameDirection (subAssign a b) (a - b) ∧
    SameDirection (scale a k) (a * k) ∧ SameDirection (scaleAssign a k) (a * k) ∧
    SameDirection (ofDegrees a) (a / 180 * π) := by
  have W := fun x => C51_wrap x
  have D := fun x => (C51_wrap x).2.2.1
  refine ⟨?_, D _, D _, ?_, D _, ?_, D _, ?_, D _, ?_⟩
  · intro r hr
    simp only [List.mem_cons, List.not_mem_nil, or_false] at hr
    rcases hr with h | h | h | h | h | h | h | h | h <;> subst h <;> exact ⟨(W _).1, (W _).2.1⟩
  · exact sameDirection_trans (D _) (D _)
  · exact sameDirection_trans (D _) (D _)
  · rw [mul_comm a k]; exact sameDirection_trans (D _) (D _)
  · have : a / 180 * π = degreesToRadians a := by unfold degreesToRadians; ring
    rw [this]; exact D _

/-- **C51.** The two unit conversions are inverse to each other and take a half turn to 180. -/
theorem C51_units (x : ℝ) :
    degreesToRadians (radiansToDegrees x) = x ∧ radiansToDegrees (degreesToRadians x) = x ∧
    radiansToDegrees π = 180 ∧ degreesToRadians 180 = π ∧ degreesOf (ofRadians π) = 180 := by
  have hp : π ≠ 0 := pi_ne_zero
  have e : radiansToDegrees π = 180 := by unfold radiansToDegrees; field_simp
  refine ⟨?_, ?_, e, ?_, ?_⟩
  · unfold degreesToRadians radiansToDegrees; field_simp
  · unfold degreesToRadians radiansToDegrees; field_simp
  · unfold degreesToRadians; ring
  · unfold degreesOf ofRadians ofReal
    rw [(C51_wrap π).2.2.2 (by linarith [pi_pos]) le_rfl, e]

/-- **C51.** Reading the angle of the rotation matrix built from an angle gives that angle back, up
to whole turns. -/
theorem C51_rotation (a : ℝ) :
    SameDirection (ofRotation (rotationMatrix a)) a ∧
    -π ≤ ofRotation (rotationMatrix a) ∧ ofRotation (rotationMatrix a) ≤ π := by
  unfold ofRotation rotationMatrix atan2
  have e : (⟨cos a, sin a⟩ : ℂ) = Complex.cos a + Complex.sin a * Complex.I := by
    apply Complex.ext
    · simp [Complex.cos_ofReal_re, Complex.sin_ofReal_im]
    · simp [Complex.cos_ofReal_im, Complex.sin_ofReal_re]
  refine ⟨?_, (Complex.neg_pi_lt_arg _).le, Complex.arg_le_pi _⟩
  simp only [e]
  rw [Complex.arg_cos_add_sin_mul_I_eq_toIocMod]
  refine ⟨-toIocDiv two_pi_pos (-π) a, ?_⟩
  have := toIocMod_add_toIocDiv_zsmul two_pi_pos (-π) a
  rw [zsmul_eq_mul] at this
  push_cast
  linarith

end Ecl.Props
