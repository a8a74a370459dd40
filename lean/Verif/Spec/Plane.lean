import Mathlib.Data.Real.Sqrt

/-! # Points of the plane, segments and polylines -/
set_option autoImplicit false

namespace Ecl.Spec

/-- Squared Euclidean distance. -/
def sqDist (p q : ℝ × ℝ) : ℝ := (p.1 - q.1) ^ 2 + (p.2 - q.2) ^ 2

/-- `r` is on the segment from `p` to `q`. -/
def OnSegment (p q r : ℝ × ℝ) : Prop :=
  ∃ t : ℝ, 0 ≤ t ∧ t ≤ 1 ∧ r = (p.1 + t * (q.1 - p.1), p.2 + t * (q.2 - p.2))

/-- `r` is on the polyline through the given points; a single point is a polyline. -/
def OnPolyline : List (ℝ × ℝ) → ℝ × ℝ → Prop
  | [], _ => False
  | [p], r => r = p
  | p :: q :: l, r => OnSegment p q r ∨ OnPolyline (q :: l) r

/-- The three points are on one line. -/
def Collinear3 (p q r : ℝ × ℝ) : Prop := (q.1 - p.1) * (r.2 - p.2) = (r.1 - p.1) * (q.2 - p.2)

end Ecl.Spec
