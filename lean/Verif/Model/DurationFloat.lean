import Mathlib.Data.Real.Basic

/-!
# Durations of trajectory segments with rounding (`ecl_manipulators/src/lib/trajectory.cpp:461-496,514-525`)

As `initialiseDurations` of `Manipulator.lean`, with every operation rounded by `fl` (to double).  A segment is given by the
duration configured for its first waypoint and the joints; sizes of arrays are the subject of `Manipulator.lean`.
Overflow and underflow are not modelled.
-/
set_option autoImplicit false

namespace Ecl.DurationFloat

/-- One joint on a segment: where it is, where it goes, and its nominal rate (`trajectory.cpp:476-479`). -/
structure Joint where
  start : ℝ
  goal : ℝ
  rate : ℝ

/-- The loop over joints (`trajectory.cpp:474-485`). -/
noncomputable def longest (fl : ℝ → ℝ) (m : ℝ) : List Joint → ℝ
  | [] => m
  | j :: js =>
    longest fl (if j.rate ≠ 0 then
      if fl (|fl (j.goal - j.start)| / j.rate) > m then fl (|fl (j.goal - j.start)| / j.rate) else m
    else m) js

/-- The duration of a segment (`trajectory.cpp:473-489`). -/
noncomputable def segment (fl : ℝ → ℝ) (d : ℝ) (js : List Joint) : ℝ :=
  if longest fl 0 js > d then longest fl 0 js else d

/-- The loop over segments (`trajectory.cpp:471-495`); a duration of zero ends it. -/
noncomputable def initialise (fl : ℝ → ℝ) : List (ℝ × List Joint) → List ℝ × Bool
  | [] => ([], true)
  | (d, js) :: r =>
    if segment fl d js = 0 then (segment fl d js :: r.map Prod.fst, false)
    else (segment fl d js :: (initialise fl r).1, (initialise fl r).2)

/-- `updateDuration` (`trajectory.cpp:514-525`). -/
noncomputable def total (fl : ℝ → ℝ) (ds : List ℝ) : ℝ := ds.foldl (fun s d => fl (s + d)) 0

end Ecl.DurationFloat
