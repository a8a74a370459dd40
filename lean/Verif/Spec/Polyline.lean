import Mathlib.Data.Real.Basic

/-!
# The polyline through given points
-/
set_option autoImplicit false

namespace Ecl.Spec

/-- Above `x` the polyline through the points `(xs[i], ys[i])` has the height `v`. -/
def OnLines (xs ys : List ℝ) (x v : ℝ) : Prop :=
  ∃ (i : ℕ) (x0 x1 y0 y1 : ℝ), xs[i]? = some x0 ∧ xs[i + 1]? = some x1 ∧ ys[i]? = some y0 ∧ ys[i + 1]? = some y1 ∧
    x0 ≤ x ∧ x ≤ x1 ∧ v = y0 + (y1 - y0) * ((x - x0) / (x1 - x0))

/-- Neighbouring abscissae are at least `d` apart. -/
def SpacedBy (xs : List ℝ) (d : ℝ) : Prop :=
  ∀ (i : ℕ) (x0 x1 : ℝ), xs[i]? = some x0 → xs[i + 1]? = some x1 → d ≤ x1 - x0

/-- Neighbouring abscissae are at most `d` apart. -/
def CloserThan (xs : List ℝ) (d : ℝ) : Prop :=
  ∀ (i : ℕ) (x0 x1 : ℝ), xs[i]? = some x0 → xs[i + 1]? = some x1 → x1 - x0 ≤ d

/-- At no point does the slope of the polyline change by more than `j`. -/
def BendsAtMost (xs ys : List ℝ) (j : ℝ) : Prop :=
  ∀ (i : ℕ) (x0 x1 x2 y0 y1 y2 : ℝ), xs[i]? = some x0 → xs[i + 1]? = some x1 → xs[i + 2]? = some x2 →
    ys[i]? = some y0 → ys[i + 1]? = some y1 → ys[i + 2]? = some y2 →
    |(y2 - y1) / (x2 - x1) - (y1 - y0) / (x1 - x0)| ≤ j

end Ecl.Spec
