import Mathlib.Data.Real.Sqrt

/-!
# Line segments (`ecl_geometry/src/lib/linear_segment.cpp`)

Exact real arithmetic.
-/
set_option autoImplicit false

namespace Ecl.Segment

/-- `LinearSegment` (`linear_segment.hpp:49-53`). -/
structure Segment where
  a : ℝ
  b : ℝ
  c : ℝ
  x1 : ℝ
  y1 : ℝ
  x2 : ℝ
  y2 : ℝ

open Classical in
/-- The constructor (`linear_segment.cpp:20-34`). -/
noncomputable def make (x1 y1 x2 y2 : ℝ) : Segment :=
  if x2 = x1 then { a := 1, b := 0, c := x1, x1 := x1, y1 := y1, x2 := x2, y2 := y2 }
  else
    let a := -1 * (y2 - y1) / (x2 - x1)
    { a := a, b := 1, c := -y1 - x1 * a, x1 := x1, y1 := y1, x2 := x2, y2 := y2 }

open Classical in
/-- The point of the segment whose distance is returned (`42-56`). -/
noncomputable def nearest (s : Segment) (x y : ℝ) : ℝ × ℝ :=
  let dot := (x - s.x1) * (s.x2 - s.x1) + (y - s.y1) * (s.y2 - s.y1)
  let squaredLength := (s.x2 - s.x1) * (s.x2 - s.x1) + (s.y2 - s.y1) * (s.y2 - s.y1)
  let t := if squaredLength ≠ 0 then dot / squaredLength else -1
  if t < 0 then (s.x1, s.y1)
  else if t > 1 then (s.x2, s.y2)
  else (s.x1 + t * (s.x2 - s.x1), s.y1 + t * (s.y2 - s.y1))

/-- `squaredDistanceFromPoint` (`36-58`). -/
noncomputable def squaredDistanceFromPoint (s : Segment) (x y : ℝ) : ℝ :=
  let p := nearest s x y
  (x - p.1) * (x - p.1) + (y - p.2) * (y - p.2)

end Ecl.Segment
