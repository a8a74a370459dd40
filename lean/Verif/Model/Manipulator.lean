import Verif.Model.Array
import Mathlib.Data.Real.Basic
import Mathlib.Algebra.Order.Group.Unbundled.Abs

/-!
# Waypoints and their durations (`ecl_manipulators`)

Exact real arithmetic.
-/
set_option autoImplicit false

namespace Ecl.Manip

/-- `WayPoint<JointAngles>` (`waypoint.hpp:375-384`); the name and the accelerations are left out. -/
structure WayPoint where
  angles : List ℝ
  rates : List ℝ
  nominal : List ℝ
  duration : ℝ
  ratesConfigured : Bool

/-- `WayPoint(dimension)` (`waypoint.hpp:120-129`). -/
def WayPoint.make (dim : ℕ) : WayPoint :=
  { angles := List.replicate dim 0, rates := List.replicate dim 0, nominal := List.replicate dim 1
    duration := 0, ratesConfigured := false }

/-- `redimension` (`166-171`): the nominal rates become 0, which validation refuses. -/
def WayPoint.redimension (w : WayPoint) (dim : ℕ) : WayPoint :=
  { w with
    angles := List.replicate dim 0
    rates := List.replicate dim 0
    nominal := List.replicate dim 0 }

/-- `nominalRates(rate)` (`293-297`). -/
def WayPoint.setNominal (w : WayPoint) (rate : ℝ) : WayPoint := { w with nominal := w.nominal.map fun _ => rate }

open Classical in
/-- The loop of `operator==` (`308-315`) over the indices of this waypoint. -/
noncomputable def eqLoop (mode : Mode) (a b : List ℝ) : List ℕ → Outcome Bool
  | [] => .ok true
  | i :: is => do
    let x ← Arr.get mode a i
    let y ← Arr.get mode b i
    if x ≠ y then .ok false else eqLoop mode a b is

/-- `operator==` (`308-315`). -/
noncomputable def WayPoint.eq (mode : Mode) (a b : WayPoint) : Outcome Bool :=
  eqLoop mode a.angles b.angles (List.range a.angles.length)

open Classical in
/-- The loop of `operator!=` (`326-333`). -/
noncomputable def neLoop (mode : Mode) (a b : List ℝ) : List ℕ → Outcome Bool
  | [] => .ok false
  | i :: is => do
    let x ← Arr.get mode a i
    let y ← Arr.get mode b i
    if x ≠ y then .ok true else neLoop mode a b is

/-- `operator!=` (`326-333`). -/
noncomputable def WayPoint.ne (mode : Mode) (a b : WayPoint) : Outcome Bool :=
  neLoop mode a.angles b.angles (List.range a.angles.length)

open Classical in
/-- The loop of `approx` (`346-353`). -/
noncomputable def approxLoop (mode : Mode) (a b : List ℝ) (epsilon : ℝ) : List ℕ → Outcome Bool
  | [] => .ok true
  | i :: is => do
    let x ← Arr.get mode a i
    let y ← Arr.get mode b i
    if |x - y| > epsilon then .ok false else approxLoop mode a b epsilon is

/-- `approx` (`346-353`). -/
noncomputable def WayPoint.approx (mode : Mode) (a b : WayPoint) (epsilon : ℝ) : Outcome Bool :=
  approxLoop mode a.angles b.angles epsilon (List.range a.angles.length)

/-! ## `Trajectory<JointAngles>` -/

/-- `append` (`trajectory.hpp:157-160`). -/
def append (mode : Mode) (dim : ℕ) (ws : List WayPoint) (w : WayPoint) : Outcome (List WayPoint) :=
  (assertThrow mode (decide (dim = w.angles.length)) .invalidInputError).bind fun _ => .ok (ws ++ [w])

/-- Every nominal rate of all waypoints but the last is positive (`trajectory.cpp:448-458`). -/
def ratesPositive (ws : List WayPoint) : Prop := ∀ w ∈ ws.dropLast, ∀ r ∈ w.nominal, ¬ r ≤ 0

open Classical in
/-- `validateWaypoints` (`trajectory.cpp:439-459`).  `n + 1` is the number of waypoints also for none
(`n` wraps around and back); without waypoints and with the minimum 0 the loop reads behind the end. -/
noncomputable def validate (ws : List WayPoint) (minimum : ℕ) : Outcome Bool :=
  if ws.length < minimum then .ok false
  else if ws = [] then .ub
  else if ratesPositive ws then .ok true
  else .ok false

open Classical in
/-- The loop over the joints (`trajectory.cpp:474-485`). -/
noncomputable def jointLoop (mode : Mode) (w next : WayPoint) : List ℕ → ℝ → Outcome ℝ
  | [], maxDuration => .ok maxDuration
  | j :: js, maxDuration => do
    let a1 ← Arr.get mode next.angles j
    let a0 ← Arr.get mode w.angles j
    let distance := |a1 - a0|
    let rate ← Arr.get mode w.nominal j
    if rate ≠ 0 then
      let segment := distance / rate
      jointLoop mode w next js (if segment > maxDuration then segment else maxDuration)
    else jointLoop mode w next js maxDuration

open Classical in
/-- A segment's duration is raised to the longest time needed (`486-489`). -/
noncomputable def raiseDuration (w : WayPoint) (maxDuration : ℝ) : WayPoint :=
  if maxDuration > w.duration then { w with duration := maxDuration } else w

open Classical in
/-- The loop over the segments (`471-495`). -/
noncomputable def segmentLoop (mode : Mode) (dim : ℕ) : List WayPoint → Res (List WayPoint) Bool
  | [] => .ok [] true
  | [w] => .ok [w] true
  | w :: next :: rest =>
    match jointLoop mode w next (List.range dim) 0 with
    | .ub => .ub
    | .throw e => .throw (w :: next :: rest) e
    | .ok m =>
      let w' := raiseDuration w m
      if w'.duration = 0 then .ok (w' :: next :: rest) false
      else
        match segmentLoop mode dim (next :: rest) with
        | .ub => .ub
        | .throw ws e => .throw (w' :: ws) e
        | .ok ws b => .ok (w' :: ws) b

/-- `initialiseWaypointDurations` (`461-496`); without waypoints the loop runs over 2³²-1 segments that
are not there. -/
noncomputable def initialiseDurations (mode : Mode) (dim : ℕ) (ws : List WayPoint) : Res (List WayPoint) Bool :=
  if ws = [] then .ub else segmentLoop mode dim ws

/-- `updateDuration` (`514-525`): the sum over all waypoints but the last. -/
def totalDuration (ws : List WayPoint) : ℝ := (ws.dropLast.map WayPoint.duration).sum

end Ecl.Manip
