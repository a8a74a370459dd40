import Verif.Core.Rigid

/-!
# Vocabulary for frames
-/
set_option autoImplicit false

namespace Ecl.Spec

/-- An exponential: along every tangent a motion with constant velocity. -/
def OneParameter {G V : Type} [Group G] [AddCommGroup V] [Module ℝ V] (exp : V → G) : Prop :=
  ∀ (s t : ℝ) (v : V), exp ((s + t) • v) = exp (s • v) * exp (t • v)

/-- A motion of space within the plane z = 0: a rotation around the z axis and a translation with z = 0. -/
def IsPlanar (T : SE3) : Prop := ∃ (c : Circle) (u : ℂ), ∀ p : Space, T.apply p = (u + c * p.1, p.2)

/-- The image of the vector `(x + iy, z)` under the rotation of the quaternion `a i + b j + c k + w`. -/
def quatRotate (a b c w : ℝ) (v : Space) : Space :=
  (⟨(1 - 2 * (b * b + c * c)) * v.1.re + 2 * (a * b - w * c) * v.1.im + 2 * (a * c + w * b) * v.2,
    2 * (a * b + w * c) * v.1.re + (1 - 2 * (a * a + c * c)) * v.1.im + 2 * (b * c - w * a) * v.2⟩,
   2 * (a * c - w * b) * v.1.re + 2 * (b * c + w * a) * v.1.im + (1 - 2 * (a * a + b * b)) * v.2)

end Ecl.Spec
