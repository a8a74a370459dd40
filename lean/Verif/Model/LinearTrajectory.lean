import Verif.Model.Manipulator
import Verif.Model.SmoothLinearSpline
import Verif.Model.MathSimple

/-!
# Smoothed linear trajectories (`ecl_manipulators/src/lib/trajectory.cpp:283-433`, `527-801`)

Exact real arithmetic; `0.001`, `1.1`, `1.05` and `0.0001` stand for these rational numbers.  The arrays
of all waypoints have the trajectory's dimension (`append` asserts it): entries beyond the end of one
are not modelled here and read as 0.  Messages are left out.
-/
set_option autoImplicit false

namespace Ecl.LinearTrajectory
open Ecl Ecl.Poly Ecl.Manip Ecl.SmoothLinear
open Ecl.CubicSpline (at')

/-- `waypoints[0].rates()` or `waypoints[n].rates()` set to zeros unless configured (`543-550`); the
non-constant `rates()` also marks them as configured (`waypoint.hpp:219-222`). -/
def configure (w : WayPoint) : WayPoint :=
  if w.ratesConfigured then w
  else { w with rates := List.replicate w.angles.length 0, ratesConfigured := true }

/-- The limits of a trajectory whose dimension has just been set (`trajectory.hpp:105`, `143`). -/
def defaultLimits (d : ℕ) : List ℝ := List.replicate d 0

/-- `initial_tangents[j]` (`586`). -/
noncomputable def initialTangent (w : WayPoint) (j : ℕ) : Coeffs ℝ := pointSlopeForm 0 (at' w.angles j) (at' w.rates j)

/-- The loop over the joints that finds `t_pre_intersect_duration` (`600-610`). -/
noncomputable def preIntersect (w : WayPoint) (pull : ℝ) : List ℕ → ℝ → Outcome ℝ
  | [], t => .ok t
  | j :: js, t =>
    (intersection (initialTangent w j)
      (pointSlopeForm pull (at' w.angles j) (-1 * (Math.psign (at' w.rates j) : ℝ) * at' w.nominal j))).bind fun p =>
        preIntersect w pull js (if p.1 < t then p.1 else t)

open Classical in
/-- The attempts `i`, ..., 5 of one joint (`619-644`, `701-726`): `quintic i` is the quintic with its
interval, `broken` the flag before and after. -/
noncomputable def attempts (amax : ℝ) (quintic : ℕ → Outcome (ℝ × ℝ × Coeffs ℝ)) : ℕ → ℕ → Bool → Outcome Bool
  | 0, _, broken => .ok broken
  | left + 1, i, broken =>
    (quintic i).bind fun q =>
      if Within amax q.1 q.2.1 q.2.2 then .ok false
      else attempts amax quintic left (i + 1) (if i = 5 then true else broken)

/-- The loop over the joints around the attempts (`612-645`, `697-727`): the flag is passed on from one
joint to the next, and a joint that succeeds clears it again. -/
noncomputable def jointsBroken (amax : List ℝ) (quintic : ℕ → ℕ → Outcome (ℝ × ℝ × Coeffs ℝ)) :
    List ℕ → Bool → Outcome Bool
  | [], broken => .ok broken
  | j :: js, broken => (attempts (at' amax j) (quintic j) 5 1 broken).bind (jointsBroken amax quintic js)

/-- The quintic at the pre pseudo point (`614-630`). -/
noncomputable def preQuintic (w0 w1 : WayPoint) (pull t : ℝ) (j i : ℕ) : Outcome (ℝ × ℝ × Coeffs ℝ) :=
  let tangent := initialTangent w0 j
  let pseudoDuration := pull + w0.duration - t
  let tl := t - (i : ℝ) * t / 5
  let tr := t + (i : ℝ) * pseudoDuration / 10
  let line := linearInterpolation t (eval 1 tangent t) (pull + w0.duration) (at' w1.angles j)
  (quinticInterpolation tl (eval 1 tangent tl) (derivativeAt 1 tangent tl) 0
    tr (eval 1 line tr) (derivativeAt 1 line tr) 0).bind fun q => .ok (tl, tr, q)

/-- One pass for the pre pseudo point (`599-645`): the flag and `t_pre_intersect_duration`. -/
noncomputable def preStage (d : ℕ) (amax : List ℝ) (w0 w1 : WayPoint) (pull : ℝ) : Outcome (Bool × ℝ) :=
  (preIntersect w0 pull (List.range d) (w0.duration / 2)).bind fun t =>
    (jointsBroken amax (preQuintic w0 w1 pull t) (List.range d) false).bind fun broken => .ok (broken, t)

/-- `final_tangent` (`687`). -/
noncomputable def finalTangent (w : WayPoint) (pull : ℝ) (j : ℕ) : Coeffs ℝ :=
  pointSlopeForm pull (at' w.angles j) (at' w.rates j)

/-- The loop over the joints that finds `t_post_intersect_duration` (`685-694`); `nominal` are the rates of
the waypoint before the last (`672-673`). -/
noncomputable def postIntersect (w : WayPoint) (nominal : List ℝ) (pull : ℝ) : List ℕ → ℝ → Outcome ℝ
  | [], t => .ok t
  | j :: js, t =>
    (intersection (finalTangent w pull j)
      (pointSlopeForm 0 (at' w.angles j) (-1 * (Math.psign (at' w.rates j) : ℝ) * at' nominal j))).bind fun p =>
        postIntersect w nominal pull js (if p.1 > t then p.1 else t)

/-- The quintic at the post pseudo point (`699-712`). -/
noncomputable def postQuintic (w wn : WayPoint) (pull t : ℝ) (j i : ℕ) : Outcome (ℝ × ℝ × Coeffs ℝ) :=
  let tangent := finalTangent wn pull j
  let pseudoDuration := pull - t
  let tl := t - (i : ℝ) * (w.duration + t) / 10
  let tr := t + (i : ℝ) * pseudoDuration / 5
  let line := linearInterpolation (-w.duration) (at' w.angles j) t (eval 1 tangent t)
  (quinticInterpolation tl (eval 1 line tl) (derivativeAt 1 line tl) 0
    tr (eval 1 tangent tr) (derivativeAt 1 tangent tr) 0).bind fun q => .ok (tl, tr, q)

/-- One pass for the post pseudo point (`684-727`). -/
noncomputable def postStage (d : ℕ) (amax : List ℝ) (w wn : WayPoint) (pull : ℝ) : Outcome (Bool × ℝ) :=
  (postIntersect wn w.nominal pull (List.range d) 0).bind fun t =>
    (jointsBroken amax (postQuintic w wn pull t) (List.range d) false).bind fun broken => .ok (broken, t)

/-- The loops `while (acceleration_constraint_broken && (t_pullback <= t_pullback_max_))` (`595-647`,
`681-729`): `none` if the constraint is still broken at the end, otherwise the pull that was tested last and the time
of the intersection.  The variable itself has been doubled once more by then (`646`, `728`). -/
noncomputable def pullLoop (stage : ℝ → Outcome (Bool × ℝ)) (limit : ℝ) : ℕ → ℝ → Outcome (Option (ℝ × ℝ))
  | 0, _ => .ok none
  | passes + 1, pull =>
    if pull ≤ limit then
      (stage pull).bind fun r => if r.1 then pullLoop stage limit passes (pull * 2) else .ok (some (pull, r.2))
    else .ok none

/-- The loop from 1ms on.  The pull doubles in every pass, so that many passes are never needed
(`pullLoop_passes`). -/
noncomputable def pull (stage : ℝ → Outcome (Bool × ℝ)) (limit : ℝ) : Outcome (Option (ℝ × ℝ)) :=
  pullLoop stage limit (⌈1000 * limit⌉₊ + 1) (1 / 1000)

/-- `waypoint_times` from the time `t` of a waypoint on (`754-759`), given the durations from it to the
one before the last. -/
def timesFrom (post postDuration t : ℝ) : List ℝ → List ℝ
  | [] => []
  | [d] => [t + d + post, t + d + post + postDuration]
  | d :: d' :: ds => (t + d) :: timesFrom post postDuration (t + d) (d' :: ds)

/-- `waypoint_times` (`751-759`).  With one segment `waypoint_times[2]` is assigned twice, so that the
extended duration of the first segment is lost. -/
def times (pre preDuration post postDuration : ℝ) : List ℝ → List ℝ
  | [] => []
  | [d] => 0 :: pre :: timesFrom post postDuration pre [d]
  | _ :: d :: ds => 0 :: pre :: (pre + preDuration) :: timesFrom post postDuration (pre + preDuration) (d :: ds)

/-- `values` for one joint (`770-777`): `middle` are the waypoints between the first and the last. -/
noncomputable def values (w0 wn : WayPoint) (middle : List WayPoint) (pre post postPull : ℝ) (j : ℕ) : List ℝ :=
  at' w0.angles j :: eval 1 (initialTangent w0 j) pre ::
    (middle.map fun w => at' w.angles j) ++ [eval 1 (finalTangent wn postPull j) post, at' wn.angles j]

/-- Datum of the exception of `SmoothLinearSpline` (`smooth_linear_spline.cpp:105`): the first corner, from
`i` on, that fails. -/
noncomputable def failedCorner (x y : ℕ → ℝ) (amax : ℝ) (n : ℕ) : ℕ → ℕ → ℕ
  | 0, i => i
  | left + 1, i =>
    match corner x y amax n i with
    | .ok _ => failedCorner x y amax n left (i + 1)
    | _ => i

/-- What `generateLinearSplines` does: it returns splines, throws `DataException<int>`, or fails
otherwise. (`trajectory.cpp:527-801`.) -/
inductive Generated where
  | splines (l : List Spline)
  | data (corner : ℕ)
  | throw (e : Flag)
  | ub

/-- The loop over the joints (`765-793`). -/
noncomputable def splineLoop (xs : List ℝ) (ys : ℕ → List ℝ) (amax : List ℝ) : List ℕ → List Spline → Generated
  | [], done => .splines done
  | j :: js, done =>
    match construct xs (ys j) (at' amax j) with
    | .ok s => splineLoop xs ys amax js (done ++ [s])
    | .throw _ => .data (failedCorner (at' xs) (at' (ys j)) (at' amax j) (xs.length - 1) (xs.length - 2) 1)
    | .ub => .ub

/-- `generateLinearSplines` (`527-801`), after the rates of the two ends are configured, for the first
waypoint, those in the middle, and the last one. -/
noncomputable def generate (d : ℕ) (amax : List ℝ) (w0 wn : WayPoint) (middle : List WayPoint) : Generated :=
  let w1 := (middle ++ [wn]).headD wn
  let before := (w0 :: middle).getLastD w0
  match pull (preStage d amax w0 w1) w0.duration with
  | .ub => .ub
  | .throw e => .throw e
  | .ok none => .data 0
  | .ok (some (prePull, pre)) =>
    match pull (postStage d amax before wn) before.duration with
    | .ub => .ub
    | .throw e => .throw e
    | .ok none => .data 0
    | .ok (some (postPull, post)) =>
      splineLoop
        (times pre (prePull * 2 + w0.duration - pre) post (postPull * 2 - post) ((w0 :: middle).map WayPoint.duration))
        (values w0 wn middle pre post postPull) amax (List.range d) []

/-- A waypoint's duration is multiplied. (`trajectory.cpp:320-362`.) -/
noncomputable def stretchOne (factor : ℝ) (w : WayPoint) : WayPoint := { w with duration := w.duration * factor }

/-- The exception handler (`320-362`), `n` the number of segments. -/
noncomputable def stretch (n k : ℕ) (ws : List WayPoint) : List WayPoint :=
  if k ≤ 0 then ws.modify 0 (stretchOne (11 / 10))
  else if k = 1 then ws.modify 0 (stretchOne (11 / 10))
  else if k ≥ n + 1 then ws.modify (n - 1) (stretchOne (11 / 10))
  else (ws.modify (k - 2) (stretchOne (21 / 20))).modify (k - 1) (stretchOne (21 / 20))

/-- A trajectory with its functions. (`trajectory.cpp:368-372`.) -/
structure Trajectory where
  waypoints : List WayPoint
  splines : List Spline
  duration : ℝ

/-- Both ends of the trajectory configured (`543-550`). -/
def configureEnds (ws : List WayPoint) : List WayPoint :=
  match ws with
  | [] => []
  | [w] => [configure w]
  | w :: rest => configure w :: rest.dropLast ++ (rest.getLast?.map configure).toList

/-- Call of `generateLinearSplines`. (`trajectory.cpp:310-318`, `527-801`.) -/
noncomputable def generateFor (d : ℕ) (amax : List ℝ) (ws : List WayPoint) : Generated :=
  match configureEnds ws with
  | w0 :: w1 :: rest => generate d amax w0 ((w1 :: rest).getLastD w1) ((w1 :: rest).dropLast)
  | _ => .ub

/-- The duration and the functions (`368-372`); without joints there is no `splines[0]`. -/
noncomputable def finish (mode : Mode) (ws : List WayPoint) (l : List Spline) : Outcome Trajectory :=
  match l with
  | [] => CubicSpline.beyond mode
  | s :: _ => .ok ⟨ws, l, s.domain.getLastD 0 - s.domain.headD 0⟩

/-- The loop `while (!splines_constrained)` (`310-363`) and what follows; `none` if it has not ended
after so many passes. -/
noncomputable def constrainLoop (mode : Mode) (d : ℕ) (amax : List ℝ) : ℕ → List WayPoint → Option (Outcome Trajectory)
  | 0, _ => none
  | passes + 1, ws =>
    match generateFor d amax ws with
    | .splines l => some (finish mode (configureEnds ws) l)
    | .data k => constrainLoop mode d amax passes (stretch (ws.length - 1) k (configureEnds ws))
    | .throw e => some (.throw e)
    | .ub => some .ub

/-- `linearSplineInterpolation` (`283-373`), `none` if it has not returned after so many passes.  The
exceptions for unsuitable waypoints are thrown in every build. -/
noncomputable def linearSplineInterpolation (mode : Mode) (d : ℕ) (amax : List ℝ) (passes : ℕ) (ws : List WayPoint) :
    Option (Outcome Trajectory) :=
  match validate ws 2 with
  | .ub => some .ub
  | .throw e => some (.throw e)
  | .ok false => some (.throw .configurationError)
  | .ok true =>
    match initialiseDurations mode d ws with
    | .ub => some .ub
    | .throw _ e => some (.throw e)
    | .ok _ false => some (.throw .configurationError)
    | .ok ws' true => constrainLoop mode d amax passes ws'

/-- `operator()`, `derivative` and `dderivative` of the trajectory (`379-433`) with those of
`SplineFunction` (`spline_function.hpp:99-135`): every joint has one function, with the domain from 0 to
the last entry of its spline's domain.  In a release build the assertions are absent, here and in the
spline's search of the segment. -/
noncomputable def evaluate (f : Spline → ℝ → Outcome ℝ) (mode : Mode) (t : Trajectory) (joint : ℕ) (time : ℝ) : Outcome ℝ :=
  (Arr.get mode t.splines joint).bind fun s =>
    let tf := s.domain.getLastD 0
    open Classical in
    (assertThrow mode (decide (0 ≤ time ∧ time ≤ tf + 1 / 10000)) .outOfRange).bind fun _ =>
      let x := if time ≤ tf then time else tf
      (assertThrow mode (decide (0 ≤ x ∧ x ≤ tf)) .outOfRange).bind fun _ => f s x

/-- `operator()` (`trajectory.cpp:379-433`). -/
noncomputable def Trajectory.value (mode : Mode) := evaluate (SmoothLinear.value mode) mode
/-- `derivative` (`trajectory.cpp:379-433`). -/
noncomputable def Trajectory.rate (mode : Mode) := evaluate (SmoothLinear.slope mode) mode
/-- `dderivative` (`trajectory.cpp:379-433`). -/
noncomputable def Trajectory.acceleration (mode : Mode) := evaluate (SmoothLinear.curvature mode) mode

end Ecl.LinearTrajectory
