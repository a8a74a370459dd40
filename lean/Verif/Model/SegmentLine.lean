import Verif.Model.SegmentFloat

/-!
# The line of a segment with rounding (`ecl_geometry/src/lib/linear_segment.cpp:20-34`)

As `make` of `Model/LinearSegment.lean`, with every operation rounded by `fl` (to double); products by -1 are exact.
Overflow and underflow are not modelled, nor is contraction to fused operations.
-/
set_option autoImplicit false

namespace Ecl.SegmentFloat

/-- The coefficients `A`, `B`, `C` (`linear_segment.hpp:49`). -/
structure Line where
  a : ℝ
  b : ℝ
  c : ℝ

/-- The constructor (`linear_segment.cpp:27-33`). -/
noncomputable def line (fl : ℝ → ℝ) (x1 y1 x2 y2 : ℝ) : Line :=
  if x2 = x1 then { a := 1, b := 0, c := x1 }
  else
    let a := fl (-1 * fl (y2 - y1) / fl (x2 - x1))
    { a := a, b := 1, c := fl (-y1 - fl (x1 * a)) }

end Ecl.SegmentFloat
