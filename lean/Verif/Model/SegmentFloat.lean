import Verif.Model.Odometry

/-!
# Distances with rounding (`ecl_geometry/src/lib/linear_segment.cpp`, `ecl_geometry/src/lib/odometry_helper.cpp`)

As `Model/LinearSegment.lean` and `Model/Odometry.lean`, with every operation rounded: by `fl` to double, by `fs` to
float.  Coordinates of trajectories are floats, which are exact as doubles.  Overflow and underflow are not modelled, nor
is contraction to fused operations.
-/
set_option autoImplicit false

namespace Ecl.SegmentFloat
open Ecl.Odometry (Pose keepLess Eig violated)

/-- The point whose distance is returned (`linear_segment.cpp:42-56`). -/
noncomputable def nearest (fl : ℝ → ℝ) (x1 y1 x2 y2 x y : ℝ) : ℝ × ℝ :=
  let dot := fl (fl (fl (x - x1) * fl (x2 - x1)) + fl (fl (y - y1) * fl (y2 - y1)))
  let squaredLength := fl (fl (fl (x2 - x1) * fl (x2 - x1)) + fl (fl (y2 - y1) * fl (y2 - y1)))
  let t := if squaredLength ≠ 0 then fl (dot / squaredLength) else -1
  if t < 0 then (x1, y1)
  else if t > 1 then (x2, y2)
  else (fl (x1 + fl (t * fl (x2 - x1))), fl (y1 + fl (t * fl (y2 - y1))))

/-- A sum of two squares of differences (`linear_segment.cpp:57`; `squaredNorm()` of a difference of positions). -/
noncomputable def squares (fl : ℝ → ℝ) (x y px py : ℝ) : ℝ :=
  fl (fl (fl (x - px) * fl (x - px)) + fl (fl (y - py) * fl (y - py)))

/-- `squaredDistanceFromPoint` (`linear_segment.cpp:36-58`). -/
noncomputable def squaredDistance (fl : ℝ → ℝ) (x1 y1 x2 y2 x y : ℝ) : ℝ :=
  let p := nearest fl x1 y1 x2 y2 x y
  squares fl x y p.1 p.2

/-- Loop of `distance` (`odometry_helper.cpp:40-53`). -/
noncomputable def distanceLoop (fl : ℝ → ℝ) (x y : ℝ) : Pose → List Pose → Option ℝ → Option ℝ
  | _, [], best => best
  | start, stop :: rest, best =>
    distanceLoop fl x y stop rest (keepLess best (squaredDistance fl start.x start.y stop.x stop.y x y))

/-- `distance(Position2D, Trajectory2D)` (`odometry_helper.cpp:28-56`); one column: `norm()` in float. -/
noncomputable def distance (fl fs : ℝ → ℝ) (mode : Mode) (x y : ℝ) (trajectory : List Pose) : Eig (Option ℝ) :=
  match trajectory with
  | [] => violated mode
  | [p] => .ok (some (fs (Real.sqrt (squares fs x y p.x p.y))))
  | p :: rest => .ok ((distanceLoop fl x y p rest none).map fun d => fl (Real.sqrt d))

/-- `distance` of two poses or odometries (`odometry_helper.cpp:78-91`), in float. -/
noncomputable def distance2 (fs : ℝ → ℝ) (ax ay bx by' : ℝ) : ℝ := fs (Real.sqrt (squares fs ax ay bx by'))

/-- `distanceSqared` (`odometry_helper.cpp:93-101`), in float. -/
noncomputable def distanceSquared2 (fs : ℝ → ℝ) (ax ay bx by' : ℝ) : ℝ := squares fs ax ay bx by'

end Ecl.SegmentFloat
