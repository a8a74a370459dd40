import Verif.Model.NanTrajectory
import Verif.Model.LinearTrajectory
import Verif.Model.TensionTrajectory

/-!
# Real numbers as the arithmetic of a program

The programs of `Model/NanSpline.lean` and `Model/NanTrajectory.lean` take the operations on `double` as parameters.
Here these are the exact operations on real numbers (division by zero gives 0), and the data of the
exact models are written, field by field, as the data of those programs.
-/
set_option autoImplicit false

namespace Ecl.NanReal
open Ecl

open Classical in
/-- The real numbers as an arithmetic. -/
noncomputable def reals : Nan.Arith ℝ where
  lit q := (q : ℝ)
  add := (· + ·)
  sub := (· - ·)
  mul := (· * ·)
  div := (· / ·)
  neg := (- ·)
  abs := (|·|)
  sqrt := Real.sqrt
  sinh := Real.sinh
  cosh := Real.cosh
  lt x y := decide (x < y)
  le x y := decide (x ≤ y)
  eq x y := decide (x = y)

/-- A smooth linear spline, field by field. -/
def smoothOf (s : SmoothLinear.Spline) : Nan.Smooth ℝ := ⟨s.domain, s.segments, s.corners⟩

/-- The result of a call, translated. -/
def into {α β : Type} (f : α → β) : Outcome α → Outcome β
  | .ok a => .ok (f a)
  | .throw e => .throw e
  | .ub => .ub

/-- A tension function, field by field. -/
def func (f : TensionSpline.Func) : Nan.Func ℝ := ⟨f.x0, f.xf, f.y0, f.yf, f.z0, f.zf⟩
/-- A tension spline, field by field. -/
def tension (s : TensionSpline.Spline) : Nan.Tension ℝ := ⟨s.domain, s.functions.map func, s.tension⟩

/-- A waypoint, field by field. -/
def way (w : Manip.WayPoint) : Nan.WayPoint ℝ := ⟨w.angles, w.rates, w.nominal, w.duration, w.ratesConfigured⟩

/-- A trajectory, field by field. -/
def tensionTrajectory (t : TensionTrajectory.Trajectory) : Nan.TensionTrajectory ℝ :=
  ⟨t.waypoints.map way, t.leading, t.middle.map tension, t.trailing, t.first, t.second, t.duration⟩

/-- A trajectory, field by field. -/
def linearTrajectory (t : LinearTrajectory.Trajectory) : Nan.LinearTrajectory ℝ := ⟨t.waypoints.map way, t.splines.map smoothOf, t.duration⟩

end Ecl.NanReal
