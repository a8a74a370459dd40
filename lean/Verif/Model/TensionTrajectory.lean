import Verif.Model.LinearTrajectory
import Verif.Model.TensionSpline

/-!
# Tension spline trajectories (`ecl_manipulators/src/lib/trajectory.cpp:36-281`, `379-433`, `803-825`)

Exact real arithmetic; `1.1` and `0.0001` stand for these rational numbers.  The arrays of all waypoints
have the trajectory's dimension (`append` asserts it): entries beyond the end of one are not modelled here
and read as 0.  Divisions by a zero duration, which only a release build gets to, have no meaning in
this model.
-/
set_option autoImplicit false

namespace Ecl.TensionTrajectory
open Ecl Ecl.Poly Ecl.Manip Ecl.SmoothLinear
open Ecl.CubicSpline (at')

/-- `waypoint_times` (`810-814`), from the time `t` of a waypoint on, given the durations from it on. -/
def knotTimes (t : ℝ) : List ℝ → List ℝ
  | [] => [t]
  | d :: ds => t :: knotTimes (t + d) ds

/-- The durations of the segments: those of all waypoints but the last. (`810-814`.) -/
def durations (ws : List WayPoint) : List ℝ := ws.dropLast.map WayPoint.duration

/-- `values` for one joint (`818-821`). -/
def jointValues (ws : List WayPoint) (j : ℕ) : List ℝ := ws.map fun w => at' w.angles j

/-- The loop over the joints (`816-823`). -/
noncomputable def splineLoop (mode : Mode) (xs : List ℝ) (ys : ℕ → List ℝ) (tau : ℝ) : List ℕ → Outcome (List TensionSpline.Spline)
  | [] => .ok []
  | j :: js =>
    (TensionSpline.natural mode xs (ys j) tau).bind fun s => (splineLoop mode xs ys tau js).bind fun ss => .ok (s :: ss)

/-- `generateTensionSplines` (`803-825`). -/
noncomputable def generate (mode : Mode) (d : ℕ) (tau t : ℝ) (ws : List WayPoint) : Outcome (List TensionSpline.Spline) :=
  splineLoop mode (knotTimes t (durations ws)) (jointValues ws) tau (List.range d)

/-- A waypoint (`waypoints[i]` with a valid index). (`36-281`.) -/
noncomputable def wp (ws : List WayPoint) (i : ℕ) : WayPoint := ws.getD i ⟨[], [], [], 0, false⟩

/-- The first joint whose acceleration at `x` is above its limit (`83-93`). -/
noncomputable def violating (mode : Mode) (amax : List ℝ) (ss : List TensionSpline.Spline) (x : ℝ) : List ℕ → Outcome (Option ℕ)
  | [] => .ok none
  | j :: js =>
    (Arr.get mode ss j).bind fun s => (TensionSpline.curvature mode s x).bind fun a =>
      open Classical in
      if |a| > at' amax j then .ok (some j) else violating mode amax ss x js

/-- The steeper one of the two segments at waypoint `i` is stretched (`96-109`). -/
noncomputable def stretchAt (ws : List WayPoint) (i j : ℕ) : List WayPoint :=
  let before := |(at' (wp ws i).angles j - at' (wp ws (i - 1)).angles j) / (wp ws (i - 1)).duration|
  let after := |(at' (wp ws (i + 1)).angles j - at' (wp ws i).angles j) / (wp ws i).duration|
  open Classical in
  if before > after then ws.modify (i - 1) (LinearTrajectory.stretchOne (11 / 10))
  else ws.modify i (LinearTrajectory.stretchOne (11 / 10))

/-- The loop over the inner knots (`81-114`), given their indices with their times: `true` if the limits
are kept at all of them. -/
noncomputable def knotPass (mode : Mode) (d : ℕ) (amax : List ℝ) (ss : List TensionSpline.Spline) :
    List (ℕ × ℝ) → List WayPoint → Bool → Outcome (List WayPoint × Bool)
  | [], ws, kept => .ok (ws, kept)
  | (i, x) :: is, ws, kept =>
    (violating mode amax ss x (List.range d)).bind fun v =>
      match v with
      | none => knotPass mode d amax ss is ws kept
      | some j => knotPass mode d amax ss is (stretchAt ws i j) false

/-- The inner knots of a domain with their indices. (`69-115`.) -/
def innerKnots (domain : List ℝ) : List (ℕ × ℝ) :=
  (List.range (domain.length - 2)).map fun i => (i + 1, at' domain (i + 1))

/-- The loop `while (!splines_constrained)` (`69-115`); `none` if it has not ended after so many passes. -/
noncomputable def knotLoop (mode : Mode) (d : ℕ) (amax : List ℝ) (tau : ℝ) : ℕ → List WayPoint → Option (Outcome (List WayPoint))
  | 0, _ => none
  | passes + 1, ws =>
    match (generate mode d tau 0 ws).bind fun ss => (Arr.get mode ss 0).bind fun s =>
        knotPass mode d amax ss (innerKnots s.domain) ws true with
    | .ub => some .ub
    | .throw e => some (.throw e)
    | .ok (ws', true) => some (.ok ws')
    | .ok (ws', false) => knotLoop mode d amax tau passes ws'

open Classical in
/-- The quintics of the joints for one attempt (`143-187`, `211-254`), `none` as soon as one of them breaks
the limit. -/
noncomputable def quintics (amax : List ℝ) (quintic : ℕ → Outcome (ℝ × ℝ × Coeffs ℝ)) : List ℕ → Outcome (Option (List (Coeffs ℝ)))
  | [] => .ok (some [])
  | j :: js =>
    (quintic j).bind fun q =>
      if Within (at' amax j) q.1 q.2.1 q.2.2 then
        (quintics amax quintic js).bind fun r => .ok (r.map (q.2.2 :: ·))
      else .ok none

/-- The attempts `i`, ..., 5 (`138-194`, `207-260`): the first that keeps all limits, with its time `t`. -/
noncomputable def attempts (attempt : ℕ → Outcome (ℝ × Option (List (Coeffs ℝ)))) : ℕ → ℕ → Outcome (Option (ℝ × List (Coeffs ℝ)))
  | 0, _ => .ok none
  | left + 1, i =>
    (attempt i).bind fun r =>
      match r.2 with
      | some qs => .ok (some (r.1, qs))
      | none => attempts attempt left (i + 1)

/-- The quintic at the start of joint `j` (`146-151`). -/
noncomputable def leadingQuintic (mode : Mode) (w0 : WayPoint) (ss : List TensionSpline.Spline) (t : ℝ) (j : ℕ) :
    Outcome (ℝ × ℝ × Coeffs ℝ) :=
  (Arr.get mode ss j).bind fun s => (TensionSpline.slope mode s (2 * t)).bind fun yd =>
    (TensionSpline.value mode s (2 * t)).bind fun y =>
      (quinticInterpolation 0 (at' w0.angles j) (at' w0.rates j) 0 (2 * t) y yd 0).bind fun q => .ok (0, 2 * t, q)

/-- One attempt for the start (`140-187`). -/
noncomputable def leadingAttempt (mode : Mode) (d : ℕ) (amax : List ℝ) (tau : ℝ) (ws : List WayPoint) (i : ℕ) :
    Outcome (ℝ × Option (List (Coeffs ℝ))) :=
  let t := (i : ℝ) * (wp ws 0).duration / 10
  (generate mode d tau t ws).bind fun ss =>
    (quintics amax (leadingQuintic mode (wp ws 0) ss t) (List.range d)).bind fun r => .ok (t, r)

/-- The loop for the start (`133-195`): the waypoints, half the time of the quintics, and these. -/
noncomputable def leadingLoop (mode : Mode) (d : ℕ) (amax : List ℝ) (tau : ℝ) :
    ℕ → List WayPoint → Option (Outcome (List WayPoint × ℝ × List (Coeffs ℝ)))
  | 0, _ => none
  | passes + 1, ws =>
    match attempts (leadingAttempt mode d amax tau ws) 5 1 with
    | .ub => some .ub
    | .throw e => some (.throw e)
    | .ok (some (t, qs)) => some (.ok (ws, t, qs))
    | .ok none => leadingLoop mode d amax tau passes (ws.modify 0 (LinearTrajectory.stretchOne (11 / 10)))

/-- The quintic at the end of joint `j` (`213-217`). -/
noncomputable def trailingQuintic (mode : Mode) (wn : WayPoint) (ss : List TensionSpline.Spline) (tf t : ℝ) (j : ℕ) :
    Outcome (ℝ × ℝ × Coeffs ℝ) :=
  (Arr.get mode ss j).bind fun s => (TensionSpline.slope mode s (tf - t)).bind fun yd =>
    (TensionSpline.value mode s (tf - t)).bind fun y =>
      (quinticInterpolation (tf - t) y yd 0 (tf + t) (at' wn.angles j) (at' wn.rates j) 0).bind fun q =>
        .ok (tf - t, tf + t, q)

/-- One attempt for the end (`209-254`). -/
noncomputable def trailingAttempt (mode : Mode) (d : ℕ) (amax : List ℝ) (ws : List WayPoint) (ss : List TensionSpline.Spline) (i : ℕ) :
    Outcome (ℝ × Option (List (Coeffs ℝ))) :=
  let t := (i : ℝ) * (wp ws (ws.length - 2)).duration / 10
  (Arr.get mode ss 0).bind fun s =>
    (quintics amax (trailingQuintic mode (wp ws (ws.length - 1)) ss (s.domain.getLastD 0) t) (List.range d)).bind fun r => .ok (t, r)

/-- A trajectory with its functions: for every joint a quintic up to `first`, a tension spline up to `second`
and a quintic up to `duration`. (`263-279`.) -/
structure Trajectory where
  waypoints : List WayPoint
  leading : List (Coeffs ℝ)
  middle : List TensionSpline.Spline
  trailing : List (Coeffs ℝ)
  first : ℝ
  second : ℝ
  duration : ℝ

/-- The loop for the end (`200-261`) and what follows (`271-279`); `lead` is half the time of the leading
quintics. -/
noncomputable def trailingLoop (mode : Mode) (d : ℕ) (amax : List ℝ) (tau lead : ℝ) (qs : List (Coeffs ℝ)) :
    ℕ → List WayPoint → Option (Outcome Trajectory)
  | 0, _ => none
  | passes + 1, ws =>
    match generate mode d tau (2 * lead / 2) ws with
    | .ub => some .ub
    | .throw e => some (.throw e)
    | .ok ss =>
      match attempts (trailingAttempt mode d amax ws ss) 5 1 with
      | .ub => some .ub
      | .throw e => some (.throw e)
      | .ok (some (t, ps)) =>
        some ((Arr.get mode ss 0).bind fun s =>
          let tf := s.domain.getLastD 0
          .ok ⟨ws, qs, ss, ps, 2 * lead, tf - t, tf + t⟩)
      | .ok none =>
        trailingLoop mode d amax tau lead qs passes (ws.modify (ws.length - 2) (LinearTrajectory.stretchOne (11 / 10)))

/-- From the first loop on (`69-279`). -/
noncomputable def build (mode : Mode) (d : ℕ) (amax : List ℝ) (tau : ℝ) (passes : ℕ) (ws : List WayPoint) : Option (Outcome Trajectory) :=
  match knotLoop mode d amax tau passes ws with
  | none => none
  | some .ub => some .ub
  | some (.throw e) => some (.throw e)
  | some (.ok ws1) =>
    match leadingLoop mode d amax tau passes (LinearTrajectory.configureEnds ws1) with
    | none => none
    | some .ub => some .ub
    | some (.throw e) => some (.throw e)
    | some (.ok (ws2, t, qs)) => trailingLoop mode d amax tau t qs passes ws2

/-- `tensionSplineInterpolation` (`36-281`), `none` if one of its loops has not ended after so many passes.
The checks of the waypoints are assertions, so that a release build goes on regardless. -/
noncomputable def tensionSplineInterpolation (mode : Mode) (d : ℕ) (amax : List ℝ) (tau : ℝ) (passes : ℕ) (ws : List WayPoint) :
    Option (Outcome Trajectory) :=
  match assertThrow mode (decide (ws.length ≥ 5)) .configurationError with
  | .ub => some .ub
  | .throw e => some (.throw e)
  | .ok _ =>
    match (validate ws 5).bind fun b => assertThrow mode b .configurationError with
    | .ub => some .ub
    | .throw e => some (.throw e)
    | .ok _ =>
      match initialiseDurations mode d ws with
      | .ub => some .ub
      | .throw _ e => some (.throw e)
      | .ok ws' b =>
        match assertThrow mode b .configurationError with
        | .ub => some .ub
        | .throw e => some (.throw e)
        | .ok _ => build mode d amax tau passes ws'

/-- A function of the trajectory with its domain (`spline_function.hpp:87-139`). -/
structure Piece where
  lo : ℝ
  hi : ℝ
  call : ℝ → Outcome ℝ

/-- Call of a `SplineFunction` (`spline_function.hpp:110-135`). -/
noncomputable def Piece.at (mode : Mode) (p : Piece) (x : ℝ) : Outcome ℝ :=
  open Classical in
  (assertThrow mode (decide (x ≥ p.lo ∧ x ≤ p.hi)) .outOfRange).bind fun _ => p.call x

/-- The call for a joint with its three functions (`379-433`). -/
noncomputable def select (mode : Mode) (p q r : Piece) (time : ℝ) : Outcome ℝ :=
  open Classical in
  (assertThrow mode (decide (time ≥ 0 ∧ time ≤ r.hi + 1 / 10000)) .outOfRange).bind fun _ =>
    if time ≤ p.hi then p.at mode time
    else if time ≤ q.hi then q.at mode time
    else if time ≤ r.hi then r.at mode time
    else r.at mode r.hi

/-- `operator()`, `derivative` and `dderivative` (`379-433`); `f` and `g` are the calls of the two kinds of
functions. -/
noncomputable def evaluate (f : Coeffs ℝ → ℝ → ℝ) (g : TensionSpline.Spline → ℝ → Outcome ℝ) (mode : Mode) (tr : Trajectory)
    (joint : ℕ) (time : ℝ) : Outcome ℝ :=
  (Arr.get mode tr.leading joint).bind fun p => (Arr.get mode tr.middle joint).bind fun s =>
    (Arr.get mode tr.trailing joint).bind fun q =>
      select mode ⟨0, tr.first, fun x => .ok (f p x)⟩ ⟨tr.first, tr.second, g s⟩
        ⟨tr.second, tr.duration, fun x => .ok (f q x)⟩ time

/-- `operator()` (`379-397`). -/
noncomputable def Trajectory.value (mode : Mode) := evaluate (fun c x => eval 5 c x) (TensionSpline.value mode) mode
/-- `derivative` (`379-433`). -/
noncomputable def Trajectory.rate (mode : Mode) := evaluate (fun c x => derivativeAt 5 c x) (TensionSpline.slope mode) mode
/-- `dderivative` (`379-433`). -/
noncomputable def Trajectory.acceleration (mode : Mode) := evaluate (fun c x => dderivativeAt 5 c x) (TensionSpline.curvature mode) mode

end Ecl.TensionTrajectory
