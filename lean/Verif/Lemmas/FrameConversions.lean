import Verif.Lemmas.Frames
import Verif.Spec.Angle

/-! # Lemmas about the conversion of frames -/
set_option autoImplicit false

namespace Ecl.Frames
open Ecl.Spec Ecl.Angle Ecl.Props
open Real (pi)

theorem arg_exp (t : ℝ) : -pi < Complex.arg (Circle.exp t) ∧ Complex.arg (Circle.exp t) ≤ pi ∧
    SameDirection (Complex.arg (Circle.exp t)) t := by
  refine ⟨Complex.neg_pi_lt_arg _, Complex.arg_le_pi _, ?_⟩
  have h := Circle.exp_arg (Circle.exp t)
  obtain ⟨k, hk⟩ := Circle.exp_eq_exp.1 h
  exact ⟨k, hk⟩

theorem toPose2D_embed (a : SE2) : toPose2D (embed a) = ⟨a.trans.re, a.trans.im, Complex.arg a.rot⟩ := by
  unfold toPose2D embed
  simp only [rz_apply, mul_one, atan2]

theorem toPose3D_eq (p : Pose.XYH) : toPose3D p = embed ⟨Circle.exp p.h, ⟨p.x, p.y⟩⟩ := rfl

end Ecl.Frames
