import Verif.Core.Outcome
import Mathlib.Analysis.Calculus.Deriv.Basic

/-! # Smooth curves over an interval, given by calls that may fail -/
set_option autoImplicit false

namespace Ecl.Spec
open Set

/-- On the whole interval the three calls succeed, the second is the derivative of the first, the
third the derivative of the second, and the third is continuous: the curve is of class C². -/
def TwiceSmooth (value slope curvature : ℝ → Outcome ℝ) (a b : ℝ) : Prop :=
  ∃ f f' f'' : ℝ → ℝ,
    (∀ x ∈ Icc a b, value x = .ok (f x) ∧ slope x = .ok (f' x) ∧ curvature x = .ok (f'' x)) ∧
    (∀ x ∈ Icc a b, HasDerivWithinAt f (f' x) (Icc a b) x) ∧
    (∀ x ∈ Icc a b, HasDerivWithinAt f' (f'' x) (Icc a b) x) ∧
    ContinuousOn f'' (Icc a b)

/-- On the whole interval the two calls succeed, the second is the derivative of the first, and it is
continuous: the curve is of class C¹. -/
def OnceSmooth (value slope : ℝ → Outcome ℝ) (a b : ℝ) : Prop :=
  ∃ f f' : ℝ → ℝ,
    (∀ x ∈ Icc a b, value x = .ok (f x) ∧ slope x = .ok (f' x)) ∧
    (∀ x ∈ Icc a b, HasDerivWithinAt f (f' x) (Icc a b) x) ∧
    ContinuousOn f' (Icc a b)

/-- On the whole interval the calls succeed, and what they give is continuous. -/
def Unbroken (value : ℝ → Outcome ℝ) (a b : ℝ) : Prop :=
  ∃ f : ℝ → ℝ, (∀ x ∈ Icc a b, value x = .ok (f x)) ∧ ContinuousOn f (Icc a b)

end Ecl.Spec
