import Verif.Model.NanSpline

/-!
# Trajectories over an arbitrary floating point arithmetic

`Model/LinearTrajectory.lean` and `Model/TensionTrajectory.lean` once more, with the operations on `double` as
parameters.  The arrays of all waypoints have the trajectory's dimension (`append` asserts it); entries beyond
the end of one read as 0.
-/
set_option autoImplicit false

namespace Ecl.Nan
open Ecl

/-- `WayPoint<JointAngles>` (`waypoint.hpp:375-384`); the name and the accelerations are left out. -/
structure WayPoint (F : Type) where
  angles : List F
  rates : List F
  nominal : List F
  duration : F
  ratesConfigured : Bool

variable {F : Type} (A : Arith F)

/-- `waypoints[i]` with a valid index. (`trajectory.cpp:36-825`.) -/
def wp (ws : List (WayPoint F)) (i : ℕ) : WayPoint F := ws.getD i ⟨[], [], [], A.lit 0, false⟩

/-- `validateWaypoints` (`trajectory.cpp:439-459`): a nominal rate is refused if it is at most 0.  Without
waypoints, and a minimum of 0, the loop reads behind the end. -/
def validate (ws : List (WayPoint F)) (minimum : ℕ) : Outcome Bool :=
  if ws.length < minimum then .ok false
  else if ws.length = 0 then .ub
  else .ok (ws.dropLast.all fun w => w.nominal.all fun r => !A.le r (A.lit 0))

/-- The loop over the joints (`trajectory.cpp:473-485`). -/
def longest (w next : WayPoint F) : List ℕ → F → F
  | [], m => m
  | j :: js, m =>
    let distance := A.abs (A.sub (get A next.angles j) (get A w.angles j))
    let rate := get A w.nominal j
    if A.eq rate (A.lit 0) then longest w next js m
    else
      let segment := A.div distance rate
      longest w next js (if A.lt m segment then segment else m)

/-- `initialiseWaypointDurations` (`trajectory.cpp:471-495`) from a waypoint on. -/
def initialise (d : ℕ) : List (WayPoint F) → List (WayPoint F) × Bool
  | [] => ([], true)
  | [w] => ([w], true)
  | w :: next :: rest =>
    let m := longest A w next (List.range d) (A.lit 0)
    let w' := if A.lt w.duration m then { w with duration := m } else w
    if A.eq w'.duration (A.lit 0) then (w' :: next :: rest, false)
    else
      let r := initialise d (next :: rest)
      (w' :: r.1, r.2)

/-- The rates of an end set to zeros unless configured (`trajectory.cpp:121-128`, `543-550`). -/
def configure (w : WayPoint F) : WayPoint F :=
  if w.ratesConfigured then w
  else { w with rates := List.replicate w.angles.length (A.lit 0), ratesConfigured := true }

/-- Both ends of the trajectory configured (`trajectory.cpp:121-128`, `543-550`). -/
def configureEnds (ws : List (WayPoint F)) : List (WayPoint F) :=
  (ws.modify 0 (configure A)).modify (ws.length - 1) (configure A)

/-- `psign` (`ecl_math/include/ecl/math/simple.hpp:60-68`) converted to `double`. -/
def psign (x : F) : F := if A.le (A.lit 0) x then A.lit 1 else A.lit (-1)

/-- `isApprox` with the default precision (`ecl_math/include/ecl/math/fuzzy.hpp:61-65`, `153-156`). -/
def isApprox (x y : F) : Bool :=
  let ax := A.abs x
  let ay := A.abs y
  A.le (A.abs (A.sub x y)) (A.mul (if A.lt ay ax then ay else ax) (A.lit (1 / 10 ^ 12)))

/-- The `x` of `Intersection<LinearFunction>` (`polynomial.cpp:154-168`); the exception is thrown in all
builds with exceptions. -/
def intersectionX (f g : Coeffs F) : Outcome F :=
  if isApprox A (f 1) (g 1) then .throw .outOfRange
  else .ok (A.div (A.sub (f 0) (g 0)) (A.sub (g 1) (f 1)))

/-! ## Linear splines -/

/-- The slope opposite to a rate (`trajectory.cpp:603`, `673`). -/
def opposite (rate nominal : F) : F := A.mul (A.mul (A.lit (-1)) (psign A rate)) nominal

/-- `initial_tangents[j]` (`trajectory.cpp:586`). -/
def initialTangent (w : WayPoint F) (j : ℕ) : Coeffs F :=
  pointSlopeForm A (A.lit 0) (get A w.angles j) (get A w.rates j)

/-- The loop over the joints that finds `t_pre_intersect_duration` (`trajectory.cpp:600-610`). -/
def preIntersect (w : WayPoint F) (pull : F) : List ℕ → F → Outcome F
  | [], t => .ok t
  | j :: js, t =>
    (intersectionX A (initialTangent A w j)
      (pointSlopeForm A pull (get A w.angles j) (opposite A (get A w.rates j) (get A w.nominal j)))).bind fun x =>
        preIntersect w pull js (if A.lt x t then x else t)

/-- The attempts `i`, ..., 5 of one joint (`trajectory.cpp:619-644`, `701-726`). -/
def attempts (amax : F) (quintic : ℕ → F × F × Coeffs F) : ℕ → ℕ → Bool → Bool
  | 0, _, broken => broken
  | left + 1, i, broken =>
    let q := quintic i
    if within A amax q.1 q.2.1 q.2.2 then false
    else attempts amax quintic left (i + 1) (if i = 5 then true else broken)

/-- The loop over the joints around the attempts (`trajectory.cpp:612-645`, `697-727`). -/
def jointsBroken (amax : List F) (quintic : ℕ → ℕ → F × F × Coeffs F) : List ℕ → Bool → Bool
  | [], broken => broken
  | j :: js, broken => jointsBroken amax quintic js (attempts A (get A amax j) (quintic j) 5 1 broken)

/-- The quintic at the pre pseudo point (`trajectory.cpp:614-630`). -/
def preQuintic (w0 w1 : WayPoint F) (pull t : F) (j i : ℕ) : F × F × Coeffs F :=
  let tangent := initialTangent A w0 j
  let pseudoDuration := A.sub (A.add pull w0.duration) t
  let tl := A.sub t (A.div (A.mul (A.lit i) t) (A.lit 5))
  let tr := A.add t (A.div (A.mul (A.lit i) pseudoDuration) (A.lit 10))
  let line := linearInterpolation A t (eval A 1 tangent t) (A.add pull w0.duration) (get A w1.angles j)
  (tl, tr, quinticInterpolation A tl (eval A 1 tangent tl) (lineSlope A tangent) (A.lit 0)
    tr (eval A 1 line tr) (lineSlope A line) (A.lit 0))

/-- One pass for the pre pseudo point (`trajectory.cpp:599-645`): the flag and `t_pre_intersect_duration`. -/
def preStage (d : ℕ) (amax : List F) (w0 w1 : WayPoint F) (pull : F) : Outcome (Bool × F) :=
  (preIntersect A w0 pull (List.range d) (A.div w0.duration (A.lit 2))).bind fun t =>
    .ok (jointsBroken A amax (preQuintic A w0 w1 pull t) (List.range d) false, t)

/-- `final_tangent` (`trajectory.cpp:687`). -/
def finalTangent (w : WayPoint F) (pull : F) (j : ℕ) : Coeffs F :=
  pointSlopeForm A pull (get A w.angles j) (get A w.rates j)

/-- The loop over the joints that finds `t_post_intersect_duration` (`trajectory.cpp:685-694`). -/
def postIntersect (w : WayPoint F) (nominal : List F) (pull : F) : List ℕ → F → Outcome F
  | [], t => .ok t
  | j :: js, t =>
    (intersectionX A (finalTangent A w pull j)
      (pointSlopeForm A (A.lit 0) (get A w.angles j) (opposite A (get A w.rates j) (get A nominal j)))).bind fun x =>
        postIntersect w nominal pull js (if A.lt t x then x else t)

/-- The quintic at the post pseudo point (`trajectory.cpp:699-712`). -/
def postQuintic (w wn : WayPoint F) (pull t : F) (j i : ℕ) : F × F × Coeffs F :=
  let tangent := finalTangent A wn pull j
  let pseudoDuration := A.sub pull t
  let tl := A.sub t (A.div (A.mul (A.lit i) (A.add w.duration t)) (A.lit 10))
  let tr := A.add t (A.div (A.mul (A.lit i) pseudoDuration) (A.lit 5))
  let line := linearInterpolation A (A.neg w.duration) (get A w.angles j) t (eval A 1 tangent t)
  (tl, tr, quinticInterpolation A tl (eval A 1 line tl) (lineSlope A line) (A.lit 0)
    tr (eval A 1 tangent tr) (lineSlope A tangent) (A.lit 0))

/-- One pass for the post pseudo point (`trajectory.cpp:684-727`). -/
def postStage (d : ℕ) (amax : List F) (w wn : WayPoint F) (pull : F) : Outcome (Bool × F) :=
  (postIntersect A wn w.nominal pull (List.range d) (A.lit 0)).bind fun t =>
    .ok (jointsBroken A amax (postQuintic A w wn pull t) (List.range d) false, t)

/-- The loops `while (acceleration_constraint_broken && (t_pullback <= t_pullback_max_))`
(`trajectory.cpp:595-647`, `681-729`): `none` if it has not ended after so many passes, `some (.ok none)` if the
constraint is still broken at the end, otherwise the pull that was tested last and the time of the intersection.
The variable itself has been doubled once more by then (`646`, `728`). -/
def pullLoop (stage : F → Outcome (Bool × F)) (limit : F) : ℕ → F → Option (Outcome (Option (F × F)))
  | 0, _ => none
  | passes + 1, pull =>
    if A.le pull limit then
      match stage pull with
      | .ok (true, _) => pullLoop stage limit passes (A.mul pull (A.lit 2))
      | .ok (false, t) => some (.ok (some (pull, t)))
      | .throw e => some (.throw e)
      | .ub => some .ub
    else some (.ok none)

/-- `waypoint_times` from the time `t` of a waypoint on (`trajectory.cpp:754-759`). -/
def timesFrom (post postDuration t : F) : List F → List F
  | [] => []
  | [d] => [A.add (A.add t d) post, A.add (A.add (A.add t d) post) postDuration]
  | d :: d' :: ds => A.add t d :: timesFrom post postDuration (A.add t d) (d' :: ds)

/-- `waypoint_times` (`trajectory.cpp:751-759`).  With one segment `waypoint_times[2]` is assigned twice. -/
def times (pre preDuration post postDuration : F) : List F → List F
  | [] => []
  | [d] => A.lit 0 :: pre :: timesFrom A post postDuration pre [d]
  | _ :: d :: ds => A.lit 0 :: pre :: A.add pre preDuration :: timesFrom A post postDuration (A.add pre preDuration) (d :: ds)

/-- `values` for one joint (`trajectory.cpp:770-777`); `middle` are the waypoints between the ends. -/
def values (w0 wn : WayPoint F) (middle : List (WayPoint F)) (pre post postPull : F) (j : ℕ) : List F :=
  get A w0.angles j :: eval A 1 (initialTangent A w0 j) pre ::
    (middle.map fun w => get A w.angles j) ++ [eval A 1 (finalTangent A wn postPull j) post, get A wn.angles j]

/-- What `generateLinearSplines` does (`trajectory.cpp:527-801`): it returns splines, throws `DataException<int>`,
fails otherwise, or does not end within the passes allowed for its loops. -/
inductive Generated (F : Type) where
  | splines (l : List (Smooth F))
  | data (k : ℕ)
  | throw (e : Flag)
  | ub
  | running

/-- The loop over the joints (`trajectory.cpp:765-793`). -/
def splineLoop (xs : List F) (ys : ℕ → List F) (amax : List F) : List ℕ → List (Smooth F) → Generated F
  | [], done => .splines done
  | j :: js, done =>
    match smooth A xs (ys j) (get A amax j) with
    | .ok s => splineLoop xs ys amax js (done ++ [s])
    | .data _ k => .data k
    | .ub => .ub

/-- `generateLinearSplines` (`trajectory.cpp:527-801`) after the rates of the ends are configured, for the first
waypoint, the last one and those in the middle. -/
def generate (d : ℕ) (amax : List F) (pulls : ℕ) (w0 wn : WayPoint F) (middle : List (WayPoint F)) : Generated F :=
  let w1 := (middle ++ [wn]).headD wn
  let before := (w0 :: middle).getLastD w0
  match pullLoop A (preStage A d amax w0 w1) w0.duration pulls (A.lit (1 / 1000)) with
  | none => .running
  | some .ub => .ub
  | some (.throw e) => .throw e
  | some (.ok none) => .data 0
  | some (.ok (some (prePull, pre))) =>
    match pullLoop A (postStage A d amax before wn) before.duration pulls (A.lit (1 / 1000)) with
    | none => .running
    | some .ub => .ub
    | some (.throw e) => .throw e
    | some (.ok none) => .data 0
    | some (.ok (some (postPull, post))) =>
      splineLoop A
        (times A pre (A.sub (A.add (A.mul prePull (A.lit 2)) w0.duration) pre) post (A.sub (A.mul postPull (A.lit 2)) post)
          ((w0 :: middle).map WayPoint.duration))
        (values A w0 wn middle pre post postPull) amax (List.range d) []

/-- A waypoint's duration is multiplied (`trajectory.cpp:330-360`). -/
def stretchOne (factor : ℚ) (w : WayPoint F) : WayPoint F := { w with duration := A.mul w.duration (A.lit factor) }

/-- The exception handler (`trajectory.cpp:320-362`), `n` the number of segments. -/
def stretch (n k : ℕ) (ws : List (WayPoint F)) : List (WayPoint F) :=
  if k ≤ 0 then ws.modify 0 (stretchOne A (11 / 10))
  else if k = 1 then ws.modify 0 (stretchOne A (11 / 10))
  else if k ≥ n + 1 then ws.modify (n - 1) (stretchOne A (11 / 10))
  else (ws.modify (k - 2) (stretchOne A (21 / 20))).modify (k - 1) (stretchOne A (21 / 20))

/-- Call of `generateLinearSplines` (`trajectory.cpp:314`) on configured waypoints. -/
def generateFor (d : ℕ) (amax : List F) (pulls : ℕ) (ws : List (WayPoint F)) : Generated F :=
  match ws with
  | w0 :: w1 :: rest => generate A d amax pulls w0 ((w1 :: rest).getLastD w1) ((w1 :: rest).dropLast)
  | _ => .ub

/-- A trajectory of linear splines (`trajectory.cpp:368-372`). -/
structure LinearTrajectory (F : Type) where
  waypoints : List (WayPoint F)
  splines : List (Smooth F)
  duration : F

/-- The duration and the functions (`trajectory.cpp:368-372`); without joints there is no `splines[0]`. -/
def finish (mode : Mode) (ws : List (WayPoint F)) (l : List (Smooth F)) : Outcome (LinearTrajectory F) :=
  match l with
  | [] => beyond mode
  | s :: _ => .ok ⟨ws, l, A.sub (s.domain.getLastD (A.lit 0)) (s.domain.headD (A.lit 0))⟩

/-- The loop `while (!splines_constrained)` (`trajectory.cpp:310-363`) and what follows; `none` if it, or a loop
within, has not ended after so many passes. -/
def constrainLoop (mode : Mode) (d : ℕ) (amax : List F) (pulls : ℕ) : ℕ → List (WayPoint F) → Option (Outcome (LinearTrajectory F))
  | 0, _ => none
  | passes + 1, ws =>
    match generateFor A d amax pulls (configureEnds A ws) with
    | .running => none
    | .splines l => some (finish A mode (configureEnds A ws) l)
    | .data k => constrainLoop mode d amax pulls passes (stretch A (ws.length - 1) k (configureEnds A ws))
    | .throw e => some (.throw e)
    | .ub => some .ub

/-- `linearSplineInterpolation` (`trajectory.cpp:283-373`).  The exceptions for unsuitable waypoints are thrown
in every build. -/
def linearSplineInterpolation (mode : Mode) (d : ℕ) (amax : List F) (passes : ℕ) (ws : List (WayPoint F)) :
    Option (Outcome (LinearTrajectory F)) :=
  match validate A ws 2 with
  | .ub => some .ub
  | .throw e => some (.throw e)
  | .ok false => some (.throw .configurationError)
  | .ok true =>
    match initialise A d ws with
    | (_, false) => some (.throw .configurationError)
    | (ws', true) => constrainLoop A mode d amax passes passes ws'

/-! ## Tension splines -/

/-- `waypoint_times` (`trajectory.cpp:810-814`). -/
def knotTimes (t : F) : List F → List F
  | [] => [t]
  | d :: ds => t :: knotTimes (A.add t d) ds

/-- The loop over the joints (`trajectory.cpp:816-823`). -/
def tensionLoop (mode : Mode) (xs : List F) (ys : ℕ → List F) (tau : F) : List ℕ → Outcome (List (Tension F))
  | [] => .ok []
  | j :: js =>
    (natural A mode xs (ys j) tau).bind fun s => (tensionLoop mode xs ys tau js).bind fun ss => .ok (s :: ss)

/-- `generateTensionSplines` (`trajectory.cpp:803-825`). -/
def tensionSplines (mode : Mode) (d : ℕ) (tau t : F) (ws : List (WayPoint F)) : Outcome (List (Tension F)) :=
  tensionLoop A mode (knotTimes A t (ws.dropLast.map WayPoint.duration)) (fun j => ws.map fun w => get A w.angles j) tau
    (List.range d)

/-- `tension_splines[j]`: an access behind the end throws in a debug build. (`trajectory.cpp:76-240`.) -/
def nth (mode : Mode) (ss : List (Tension F)) (j : ℕ) : Outcome (Tension F) :=
  match ss[j]? with
  | some s => .ok s
  | none => beyond mode

/-- The first joint whose acceleration at `x` is above its limit (`trajectory.cpp:83-93`). -/
def violating (mode : Mode) (amax : List F) (ss : List (Tension F)) (x : F) : List ℕ → Outcome (Option ℕ)
  | [] => .ok none
  | j :: js =>
    (nth mode ss j).bind fun s => (Tension.curvature A mode s x).bind fun a =>
      if A.lt (get A amax j) (A.abs a) then .ok (some j) else violating mode amax ss x js

/-- The steeper one of the two segments at waypoint `i` is stretched (`trajectory.cpp:96-109`). -/
def stretchAt (ws : List (WayPoint F)) (i j : ℕ) : List (WayPoint F) :=
  let before := A.abs (A.div (A.sub (get A (wp A ws i).angles j) (get A (wp A ws (i - 1)).angles j)) (wp A ws (i - 1)).duration)
  let after := A.abs (A.div (A.sub (get A (wp A ws (i + 1)).angles j) (get A (wp A ws i).angles j)) (wp A ws i).duration)
  if A.lt after before then ws.modify (i - 1) (stretchOne A (11 / 10)) else ws.modify i (stretchOne A (11 / 10))

/-- The loop over the inner knots (`trajectory.cpp:81-114`). -/
def knotPass (mode : Mode) (d : ℕ) (amax : List F) (ss : List (Tension F)) :
    List (ℕ × F) → List (WayPoint F) → Bool → Outcome (List (WayPoint F) × Bool)
  | [], ws, kept => .ok (ws, kept)
  | (i, x) :: is, ws, kept =>
    (violating A mode amax ss x (List.range d)).bind fun v =>
      match v with
      | none => knotPass mode d amax ss is ws kept
      | some j => knotPass mode d amax ss is (stretchAt A ws i j) false

/-- The inner knots of a domain with their indices (`trajectory.cpp:81`). -/
def innerKnots (domain : List F) : List (ℕ × F) :=
  (List.range (domain.length - 2)).map fun i => (i + 1, get A domain (i + 1))

/-- The loop `while (!splines_constrained)` (`trajectory.cpp:69-115`); `none` if it has not ended after so many
passes. -/
def knotLoop (mode : Mode) (d : ℕ) (amax : List F) (tau : F) : ℕ → List (WayPoint F) → Option (Outcome (List (WayPoint F)))
  | 0, _ => none
  | passes + 1, ws =>
    match (tensionSplines A mode d tau (A.lit 0) ws).bind fun ss => (nth mode ss 0).bind fun s =>
        knotPass A mode d amax ss (innerKnots A s.domain) ws true with
    | .ub => some .ub
    | .throw e => some (.throw e)
    | .ok (ws', true) => some (.ok ws')
    | .ok (ws', false) => knotLoop mode d amax tau passes ws'

/-- The quintics of the joints for one attempt (`trajectory.cpp:143-187`, `211-254`), `none` as soon as one of
them breaks the limit. -/
def quintics (amax : List F) (quintic : ℕ → Outcome (F × F × Coeffs F)) : List ℕ → Outcome (Option (List (Coeffs F)))
  | [] => .ok (some [])
  | j :: js =>
    (quintic j).bind fun q =>
      if within A (get A amax j) q.1 q.2.1 q.2.2 then
        (quintics amax quintic js).bind fun r => .ok (r.map (q.2.2 :: ·))
      else .ok none

/-- The attempts `i`, ..., 5 (`trajectory.cpp:138-194`, `207-260`): the first that keeps all limits. -/
def firstAttempt (attempt : ℕ → Outcome (F × Option (List (Coeffs F)))) : ℕ → ℕ → Outcome (Option (F × List (Coeffs F)))
  | 0, _ => .ok none
  | left + 1, i =>
    (attempt i).bind fun r =>
      match r.2 with
      | some qs => .ok (some (r.1, qs))
      | none => firstAttempt attempt left (i + 1)

/-- The quintic at the start of joint `j` (`trajectory.cpp:146-151`). -/
def leadingQuintic (mode : Mode) (w0 : WayPoint F) (ss : List (Tension F)) (t : F) (j : ℕ) : Outcome (F × F × Coeffs F) :=
  let tt := A.mul (A.lit 2) t
  (nth mode ss j).bind fun s => (Tension.slope A mode s tt).bind fun yd => (Tension.value A mode s tt).bind fun y =>
    .ok (A.lit 0, tt, quinticInterpolation A (A.lit 0) (get A w0.angles j) (get A w0.rates j) (A.lit 0) tt y yd (A.lit 0))

/-- One attempt for the start (`trajectory.cpp:140-187`). -/
def leadingAttempt (mode : Mode) (d : ℕ) (amax : List F) (tau : F) (ws : List (WayPoint F)) (i : ℕ) :
    Outcome (F × Option (List (Coeffs F))) :=
  let t := A.div (A.mul (A.lit i) (wp A ws 0).duration) (A.lit 10)
  (tensionSplines A mode d tau t ws).bind fun ss =>
    (quintics A amax (leadingQuintic A mode (wp A ws 0) ss t) (List.range d)).bind fun r => .ok (t, r)

/-- The loop for the start (`trajectory.cpp:133-195`): the waypoints, half the time of the quintics, and these. -/
def leadingLoop (mode : Mode) (d : ℕ) (amax : List F) (tau : F) :
    ℕ → List (WayPoint F) → Option (Outcome (List (WayPoint F) × F × List (Coeffs F)))
  | 0, _ => none
  | passes + 1, ws =>
    match firstAttempt (leadingAttempt A mode d amax tau ws) 5 1 with
    | .ub => some .ub
    | .throw e => some (.throw e)
    | .ok (some (t, qs)) => some (.ok (ws, t, qs))
    | .ok none => leadingLoop mode d amax tau passes (ws.modify 0 (stretchOne A (11 / 10)))

/-- The quintic at the end of joint `j` (`trajectory.cpp:213-217`). -/
def trailingQuintic (mode : Mode) (wn : WayPoint F) (ss : List (Tension F)) (tf t : F) (j : ℕ) : Outcome (F × F × Coeffs F) :=
  let tl := A.sub tf t
  let tr := A.add tf t
  (nth mode ss j).bind fun s => (Tension.slope A mode s tl).bind fun yd => (Tension.value A mode s tl).bind fun y =>
    .ok (tl, tr, quinticInterpolation A tl y yd (A.lit 0) tr (get A wn.angles j) (get A wn.rates j) (A.lit 0))

/-- One attempt for the end (`trajectory.cpp:209-254`). -/
def trailingAttempt (mode : Mode) (d : ℕ) (amax : List F) (ws : List (WayPoint F)) (ss : List (Tension F)) (i : ℕ) :
    Outcome (F × Option (List (Coeffs F))) :=
  let t := A.div (A.mul (A.lit i) (wp A ws (ws.length - 2)).duration) (A.lit 10)
  (nth mode ss 0).bind fun s =>
    (quintics A amax (trailingQuintic A mode (wp A ws (ws.length - 1)) ss (s.domain.getLastD (A.lit 0)) t) (List.range d)).bind
      fun r => .ok (t, r)

/-- A trajectory with a quintic, a tension spline and a quintic for every joint (`trajectory.cpp:271-279`). -/
structure TensionTrajectory (F : Type) where
  waypoints : List (WayPoint F)
  leading : List (Coeffs F)
  middle : List (Tension F)
  trailing : List (Coeffs F)
  first : F
  second : F
  duration : F

/-- The loop for the end (`trajectory.cpp:200-261`) and what follows (`271-279`); `lead` is half the time of the
leading quintics. -/
def trailingLoop (mode : Mode) (d : ℕ) (amax : List F) (tau lead : F) (qs : List (Coeffs F)) :
    ℕ → List (WayPoint F) → Option (Outcome (TensionTrajectory F))
  | 0, _ => none
  | passes + 1, ws =>
    let time := A.mul (A.lit 2) lead
    match tensionSplines A mode d tau (A.div time (A.lit 2)) ws with
    | .ub => some .ub
    | .throw e => some (.throw e)
    | .ok ss =>
      match firstAttempt (trailingAttempt A mode d amax ws ss) 5 1 with
      | .ub => some .ub
      | .throw e => some (.throw e)
      | .ok (some (t, ps)) =>
        some ((nth mode ss 0).bind fun s =>
          let tf := s.domain.getLastD (A.lit 0)
          .ok ⟨ws, qs, ss, ps, time, A.sub tf t, A.add tf t⟩)
      | .ok none => trailingLoop mode d amax tau lead qs passes (ws.modify (ws.length - 2) (stretchOne A (11 / 10)))

/-- From the first loop on (`trajectory.cpp:69-279`). -/
def build (mode : Mode) (d : ℕ) (amax : List F) (tau : F) (passes : ℕ) (ws : List (WayPoint F)) :
    Option (Outcome (TensionTrajectory F)) :=
  match knotLoop A mode d amax tau passes ws with
  | none => none
  | some .ub => some .ub
  | some (.throw e) => some (.throw e)
  | some (.ok ws1) =>
    match leadingLoop A mode d amax tau passes (configureEnds A ws1) with
    | none => none
    | some .ub => some .ub
    | some (.throw e) => some (.throw e)
    | some (.ok (ws2, t, qs)) => trailingLoop A mode d amax tau t qs passes ws2

/-- `tensionSplineInterpolation` (`trajectory.cpp:36-281`).  The checks of the waypoints are assertions. -/
def tensionSplineInterpolation (mode : Mode) (d : ℕ) (amax : List F) (tau : F) (passes : ℕ) (ws : List (WayPoint F)) :
    Option (Outcome (TensionTrajectory F)) :=
  match assertThrow mode (decide (ws.length ≥ 5)) .configurationError with
  | .ub => some .ub
  | .throw e => some (.throw e)
  | .ok _ =>
    match (validate A ws 5).bind fun b => assertThrow mode b .configurationError with
    | .ub => some .ub
    | .throw e => some (.throw e)
    | .ok _ =>
      if ws.length = 0 then some .ub
      else
        match assertThrow mode (initialise A d ws).2 .configurationError with
        | .ub => some .ub
        | .throw e => some (.throw e)
        | .ok _ => build A mode d amax tau passes (initialise A d ws).1

end Ecl.Nan
