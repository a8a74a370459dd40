import Verif.Lemmas.TensionTrajectoryBroken

/-! # C83: tension spline trajectories -/
set_option autoImplicit false
set_option linter.unusedSimpArgs false

namespace Ecl.Props
open Ecl Ecl.Poly Ecl.Manip Ecl.Spec Ecl.TensionTrajectory
open Ecl.LinearTrajectory (Kept kept_get at_of_getElem? rate_kept)
open Ecl.CubicSpline (at')

/-- **C83.** If the interpolation returns, every joint starts at the first waypoint and ends at the last one, with
the rates configured there and without acceleration.  The waypoints keep their angles and their
durations only grow. -/
theorem C83_ends (mode : Mode) (d passes : ℕ) (amax : List ℝ) (tau : ℝ) (ws : List WayPoint) (tr : Trajectory) (hd : 0 < d) (ht : 0 < tau)
    (hf : ∀ w ∈ ws, Fits d w) (hu : Usable 3 ws) (h : tensionSplineInterpolation mode d amax tau passes ws = some (.ok tr)) :
    0 < tr.duration ∧ Stretched ws tr.waypoints ∧
    ∀ j < d, ∀ (first last : WayPoint) (a b : ℝ), ws.head? = some first → ws.getLast? = some last →
      first.angles[j]? = some a → last.angles[j]? = some b →
      tr.value mode j 0 = .ok a ∧ tr.rate mode j 0 = .ok (configuredRate first j) ∧ tr.acceleration mode j 0 = .ok 0 ∧
      tr.value mode j tr.duration = .ok b ∧ tr.rate mode j tr.duration = .ok (configuredRate last j) ∧
      tr.acceleration mode j tr.duration = .ok 0 := by
  obtain ⟨ws1, start, t, L⟩ := returned hd ht hf hu h
  obtain ⟨f0, f1, f2⟩ := L.first_lt
  have hk := LinearTrajectory.kept_trans L.kept L.kept'
  have l1 := L.kept.length_eq
  have l2 := L.kept'.length_eq
  have h3 := L.three
  refine ⟨(f0.trans f1).trans f2, kept_stretched hk, ?_⟩
  intro j hj first last a b hfirst hlast ha hb
  obtain ⟨p, q, s, P⟩ := L.parts hj
  have k0 : Kept first (wp ws1 0) := by
    obtain ⟨v, e, k⟩ := kept_get L.kept 0 (wp ws1 0) (wp_get ws1 (by omega))
    rw [← List.head?_eq_getElem?, hfirst] at e
    cases e; exact k
  have kn : Kept last (wp tr.waypoints (tr.waypoints.length - 1)) := by
    obtain ⟨v, e, k⟩ := kept_get hk (tr.waypoints.length - 1) _ (wp_get tr.waypoints (by omega))
    rw [show tr.waypoints.length - 1 = ws.length - 1 by omega, ← List.getLast?_eq_getElem?, hlast] at e
    cases e; exact k
  have ea : at' (wp ws1 0).angles j = a := by rw [k0.angles]; exact at_of_getElem? ha
  have eb : at' (wp tr.waypoints (tr.waypoints.length - 1)).angles j = b := by rw [kn.angles]; exact at_of_getElem? hb
  have e0 : ∀ f g, evaluate f g mode tr j 0 = .ok (f p 0) := fun f g => evaluate_first f g P.hp P.hs P.hq f1 f2 (le_refl _) f0.le
  have eT : ∀ f g, evaluate f g mode tr j tr.duration = .ok (f q tr.duration) := fun f g =>
    evaluate_third f g P.hp P.hs P.hq f0 f1 f2 (le_refl _)
  refine ⟨?_, ?_, ?_, ?_, ?_, ?_⟩
  · exact (e0 _ _).trans (by rw [P.startValue, ea])
  · exact (e0 _ _).trans (by rw [P.startRate, rate_kept k0 L.configured])
  · exact (e0 _ _).trans (by rw [P.startCurvature])
  · exact (eT _ _).trans (by rw [P.endValue, eb])
  · exact (eT _ _).trans (by rw [P.endRate, rate_kept kn L.configured'])
  · exact (eT _ _).trans (by rw [P.endCurvature])

/-- **C83.** In between it passes through all waypoints, one after the other, at the times their (stretched)
durations add up to. -/
theorem C83_waypoints (mode : Mode) (d passes : ℕ) (amax : List ℝ) (tau : ℝ) (ws : List WayPoint) (tr : Trajectory) (hd : 0 < d) (ht : 0 < tau)
    (hf : ∀ w ∈ ws, Fits d w) (hu : Usable 3 ws) (h : tensionSplineInterpolation mode d amax tau passes ws = some (.ok tr)) :
    ∃ t0 : ℝ, 0 < t0 ∧ ∀ (i : ℕ) (w : WayPoint), ws[i]? = some w → 0 < i → i + 1 < ws.length →
      t0 + ((tr.waypoints.take i).map WayPoint.duration).sum < tr.duration ∧
      ∀ j < d, ∀ a, w.angles[j]? = some a → tr.value mode j (t0 + ((tr.waypoints.take i).map WayPoint.duration).sum) = .ok a := by
  obtain ⟨ws1, start, t, L⟩ := returned hd ht hf hu h
  obtain ⟨f0, f1, f2⟩ := L.first_lt
  have hk := LinearTrajectory.kept_trans L.kept L.kept'
  have hl := hk.length_eq
  have h3 := L.three
  have F := L.finished
  refine ⟨start, L.pos, fun i w hw hi0 hi => ?_⟩
  have hi' : i + 1 < tr.waypoints.length := by omega
  have hsum : ((tr.waypoints.take i).map WayPoint.duration).sum = ((durations tr.waypoints).take i).sum := by
    rw [durations, ← List.map_take, List.dropLast_eq_take, List.take_take, min_eq_left (by omega)]
  have hdl : i ≤ (durations tr.waypoints).length := by rw [durations_length]; omega
  have hknot := knotTimes_at (durations tr.waypoints) start i hdl
  -- after the leading quintic
  have hpos := durations_pos L.ready
  have hfirst : (wp tr.waypoints 0).duration ≤ ((durations tr.waypoints).take i).sum := by
    have h0 : 0 < (durations tr.waypoints).length := by rw [durations_length]; omega
    have hm : (wp tr.waypoints 0).duration ∈ (durations tr.waypoints).take i := by
      rw [← durations_get tr.waypoints (i := 0) (by omega), CubicSpline.at_getElem h0, List.mem_iff_getElem?]
      exact ⟨0, by rw [List.getElem?_take_of_lt hi0, List.getElem?_eq_getElem h0]⟩
    exact List.single_le_sum (fun x hx => (hpos x (List.mem_of_mem_take hx)).le) _ hm
  have hlast : ((durations tr.waypoints).take i).sum + (wp tr.waypoints (tr.waypoints.length - 2)).duration ≤ (durations tr.waypoints).sum := by
    have h0 : tr.waypoints.length - 2 < (durations tr.waypoints).length := by rw [durations_length]; omega
    have hm : (wp tr.waypoints (tr.waypoints.length - 2)).duration ∈ (durations tr.waypoints).drop i := by
      rw [← durations_get tr.waypoints (i := tr.waypoints.length - 2) (by omega), CubicSpline.at_getElem h0, List.mem_iff_getElem?]
      refine ⟨tr.waypoints.length - 2 - i, ?_⟩
      rw [List.getElem?_drop, show i + (tr.waypoints.length - 2 - i) = tr.waypoints.length - 2 by omega, List.getElem?_eq_getElem h0]
    have := List.single_le_sum (fun x hx => (hpos x (List.mem_of_mem_drop hx)).le) _ hm
    conv_rhs => rw [← List.take_append_drop i (durations tr.waypoints), List.sum_append]
    linarith
  have h0 : (wp ws1 0).duration ≤ (wp tr.waypoints 0).duration := (kept_wp L.kept' (i := 0) (by rw [L.kept'.length_eq]; omega)).longer
  have q1 := L.half
  have q2 := L.pos
  have q3 := F.pos
  have q4 := F.half
  have q5 := wp_pos L.ready (i := 0) (by omega)
  rw [hsum]
  refine ⟨by rw [F.duration]; linarith, fun j hj a ha => ?_⟩
  obtain ⟨p, q, s, P⟩ := L.parts hj
  have e : tr.value mode j (start + ((durations tr.waypoints).take i).sum) =
      TensionSpline.value mode s (start + ((durations tr.waypoints).take i).sum) :=
    evaluate_second _ _ P.hp P.hs P.hq f0 f2 (by rw [F.first]; linarith) (by rw [F.second]; linarith)
  obtain ⟨z, hz⟩ := P.spline
  rw [e, ← hknot, hz.at_knot_value ht i (by omega)]
  obtain ⟨w', g, k⟩ := kept_get hk i _ (wp_get tr.waypoints (by omega))
  rw [hw] at g
  cases g
  have : at' (jointValues tr.waypoints j) i = at' (wp tr.waypoints i).angles j := by
    rw [jointValues, at', List.getD_eq_getElem?_getD, List.getElem?_map, wp_get tr.waypoints (by omega : i < tr.waypoints.length)]
    rfl
  rw [this, k.angles, at_of_getElem? ha]

/-- **C83.** It consists of three parts.  The first is twice continuously differentiable and keeps the limit of
the joint.  Behind the end of the first part the trajectory is continuously differentiable up to its end,
twice so up to the last part, and the last part keeps the limit.  (Missing for the property: that the
parts fit together, and that the middle part keeps the limit; both are false, see `C83_fails_continuous` and
`C83_fails_limit`.) -/
theorem C83_pieces_partial (mode : Mode) (d passes : ℕ) (amax : List ℝ) (tau : ℝ) (ws : List WayPoint) (tr : Trajectory) (hd : 0 < d) (ht : 0 < tau)
    (hf : ∀ w ∈ ws, Fits d w) (hu : Usable 3 ws) (h : tensionSplineInterpolation mode d amax tau passes ws = some (.ok tr)) :
    ∃ t1 t2 : ℝ, 0 < t1 ∧ t1 < t2 ∧ t2 < tr.duration ∧ ∀ j < d, ∀ limit, amax[j]? = some limit →
      TwiceSmooth (tr.value mode j) (tr.rate mode j) (tr.acceleration mode j) 0 t1 ∧
      (∀ a, t1 < a → a ≤ t2 → OnceSmooth (tr.value mode j) (tr.rate mode j) a tr.duration ∧
        TwiceSmooth (tr.value mode j) (tr.rate mode j) (tr.acceleration mode j) a t2) ∧
      ∀ t, 0 ≤ t ∧ t ≤ t1 ∨ t2 < t ∧ t ≤ tr.duration → ∃ v, tr.acceleration mode j t = .ok v ∧ |v| ≤ |limit| := by
  obtain ⟨ws1, start, t, L⟩ := returned hd ht hf hu h
  obtain ⟨f0, f1, f2⟩ := L.first_lt
  refine ⟨tr.first, tr.second, f0, f1, f2, fun j hj limit hl => ?_⟩
  obtain ⟨p, q, s, P⟩ := L.parts hj
  have el := at_of_getElem? hl
  refine ⟨(L.first_part P).1, fun a ha ha2 => ⟨L.tail ht P ha ha2, L.middle_part ht P ha⟩, ?_⟩
  rintro x (⟨h1, h2⟩ | ⟨h1, h2⟩)
  · rw [← el]; exact (L.first_part P).2 x ⟨h1, h2⟩
  · rw [← el]; exact (L.last_part P).2 x h1 h2

/-- **C83.** With large enough limits the call returns at the first attempt, leaves the durations as they were
initialised, and every joint's trajectory is continuously differentiable from 0 to the duration and keeps
its limit throughout. -/
theorem C83_large_limits_partial (mode : Mode) (d : ℕ) (tau : ℝ) (ws : List WayPoint) (hd : 0 < d) (ht : 0 < tau)
    (hf : ∀ w ∈ ws, Fits d w) (hu : Usable 5 ws) :
    ∃ A : ℝ, ∀ amax : List ℝ, (∀ j < d, ∃ a, amax[j]? = some a ∧ A < a) →
      ∃ tr, tensionSplineInterpolation mode d amax tau 1 ws = some (.ok tr) ∧
        ∀ j < d, ∀ limit, amax[j]? = some limit →
          OnceSmooth (tr.value mode j) (tr.rate mode j) 0 tr.duration ∧
          ∀ t ∈ Set.Icc 0 tr.duration, ∃ v, tr.acceleration mode j t = .ok v ∧ |v| ≤ |limit| := by
  have hu3 : Usable 3 ws := ⟨by have := hu.1; omega, hu.2⟩
  obtain ⟨ws', hi, hr, hk⟩ := initialised mode (by norm_num) hf hu
  obtain ⟨A, hA⟩ := build_large mode hd ht hr (by rw [← hk.length_eq]; exact hu3.1)
  refine ⟨A, fun amax ha => ?_⟩
  obtain ⟨tr, t, hb, -, L, hB⟩ := hA amax (fun j hj => by
    obtain ⟨a, h1, h2⟩ := ha j hj
    rw [at_of_getElem? h1]; exact h2) 0
  refine ⟨tr, by rw [interpolate_build mode amax tau 1 hu hi]; exact hb, fun j hj limit hl => ?_⟩
  obtain ⟨p, q, s, P⟩ := L.parts hj
  obtain ⟨f0, f1, f2⟩ := L.first_lt
  obtain ⟨i1, i2⟩ := L.inside
  have el := at_of_getElem? hl
  refine ⟨L.joined ht P, fun x hx => ?_⟩
  rw [← el]
  rcases le_or_gt x tr.first with h1 | h1
  · exact (L.first_part P).2 x ⟨hx.1, h1⟩
  rcases le_or_gt x tr.second with h2 | h2
  · obtain ⟨v, e, hv⟩ := hB j hj s P.spline x (by linarith) (by linarith)
    exact ⟨v, (evaluate_second _ _ P.hp P.hs P.hq f0 f2 h1 h2).trans e, hv.trans (le_abs_self _)⟩
  · exact (L.last_part P).2 x h2 hx.2

/-- **C83.** But even then the acceleration may jump: the quintic at the start ends without acceleration on a
spline that accelerates. -/
theorem C83_fails_acceleration :
    ¬ (∀ (mode : Mode) (d passes : ℕ) (amax : List ℝ) (tau : ℝ) (ws : List WayPoint) (tr : Trajectory), 0 < d → 0 < tau →
      (∀ w ∈ ws, Fits d w) → Usable 5 ws → tensionSplineInterpolation mode d amax tau passes ws = some (.ok tr) →
      ∀ j < d, Unbroken (tr.acceleration mode j) 0 tr.duration) := by
  intro h
  obtain ⟨A, hA⟩ := build_large .debug one_pos (tau := 1) one_pos bent_ready (by simp [bent])
  obtain ⟨tr, t, hb, ew, L, -⟩ := hA [A + 1] (fun j hj => by
    obtain rfl : j = 0 := by omega
    show A < A + 1
    linarith) 0
  have hu := h .debug 1 1 [A + 1] 1 bent tr one_pos one_pos bent_fits bent_usable
    (by rw [interpolate_build .debug _ 1 1 bent_usable (bent_init .debug)]; exact hb) 0 one_pos
  obtain ⟨p, q, s, P⟩ := L.parts one_pos
  have hc := L.acceleration_meets one_pos P hu
  have ebent : LinearTrajectory.configureEnds bent = bent := by
    show LinearTrajectory.configureEnds ((⟨[0], [0], [1], 1, true⟩ : WayPoint) ::
      [⟨[0], [0], [1], 1, true⟩, ⟨[1], [0], [1], 1, true⟩, ⟨[2], [0], [1], 1, true⟩] ++ [⟨[3], [0], [1], 0, true⟩]) = _
    rw [LinearTrajectory.configureEnds_eq]
    rfl
  rw [ebent] at ew
  have hsp := P.spline
  rw [ew] at hsp
  have e : (wp bent 0).duration / 10 = 1 / 10 := rfl
  rw [e] at hsp L
  refine bent_curvature one_pos hsp ?_ ?_ hc <;> rw [L.finished.first] <;> norm_num

/-- **C83.** And the position itself may jump: the loop for the end stretches a segment, which changes the whole
spline, but the quintics at the start have been made for the spline before. -/
theorem C83_fails_continuous :
    ¬ (∀ (mode : Mode) (d passes : ℕ) (amax : List ℝ) (tau : ℝ) (ws : List WayPoint) (tr : Trajectory), 0 < d → 0 < tau →
      (∀ w ∈ ws, Fits d w) → Usable 5 ws → (∀ a ∈ amax, 0 < a) → tensionSplineInterpolation mode d amax tau passes ws = some (.ok tr) →
      ∀ j < d, Unbroken (tr.value mode j) 0 tr.duration) := by
  intro h
  obtain ⟨R, L, passes, tr, hL, e, hn⟩ := kicked_jumps .debug
  exact hn (h .debug 1 passes [L] 1 (kicked R 1) tr one_pos one_pos (kicked_fits R 1) (kicked_usable one_pos)
    (fun a ha => by rw [List.mem_singleton] at ha; rw [ha]; exact hL) e 0 one_pos)

/-- **C83.** And the limit may be broken: the stretched segment also bends the spline at the waypoint before it, and
the accelerations at the waypoints have been checked for the spline before. -/
theorem C83_fails_limit :
    ¬ (∀ (mode : Mode) (d passes : ℕ) (amax : List ℝ) (tau : ℝ) (ws : List WayPoint) (tr : Trajectory), 0 < d → 0 < tau →
      (∀ w ∈ ws, Fits d w) → Usable 5 ws → (∀ a ∈ amax, 0 < a) → tensionSplineInterpolation mode d amax tau passes ws = some (.ok tr) →
      ∀ j < d, ∀ limit, amax[j]? = some limit → ∀ t ∈ Set.Icc 0 tr.duration, ∃ v, tr.acceleration mode j t = .ok v ∧ |v| ≤ |limit|) := by
  intro h
  obtain ⟨passes, tr, x, v, e, x0, x1, ha, hv⟩ := straight_breaks .debug
  obtain ⟨v', e', hv'⟩ := h .debug 1 passes [1 / 30] 1 (straight 1) tr one_pos one_pos (straight_fits 1) (straight_usable one_pos)
    (fun a ha => by rw [List.mem_singleton] at ha; rw [ha]; norm_num) e 0 one_pos (1 / 30) rfl x ⟨x0, x1⟩
  rw [ha] at e'
  cases e'
  rw [abs_of_pos (by norm_num : (0 : ℝ) < 1 / 30)] at hv'
  linarith

/-- **C83.** Up to a tenth of a millisecond after the end the trajectory stays where it ended; any other time
outside is refused in a debug build, and so is a joint it does not have. -/
theorem C83_outside (mode : Mode) (d passes : ℕ) (amax : List ℝ) (tau : ℝ) (ws : List WayPoint) (tr : Trajectory) (hd : 0 < d) (ht : 0 < tau)
    (hf : ∀ w ∈ ws, Fits d w) (hu : Usable 3 ws) (h : tensionSplineInterpolation mode d amax tau passes ws = some (.ok tr)) (j : ℕ) (t : ℝ) :
    (j < d → tr.duration < t → t ≤ tr.duration + 1 / 10000 →
      tr.value mode j t = tr.value mode j tr.duration ∧ tr.rate mode j t = tr.rate mode j tr.duration ∧
      tr.acceleration mode j t = tr.acceleration mode j tr.duration) ∧
    (j < d → t < 0 ∨ tr.duration + 1 / 10000 < t →
      tr.value .debug j t = .throw .outOfRange ∧ tr.rate .debug j t = .throw .outOfRange ∧
      tr.acceleration .debug j t = .throw .outOfRange) ∧
    (d ≤ j → tr.value .debug j t = .throw .outOfRange ∧ tr.value .release j t = .ub) := by
  obtain ⟨ws1, start, tt, L⟩ := returned hd ht hf hu h
  obtain ⟨f0, f1, f2⟩ := L.first_lt
  refine ⟨fun hj h1 h2 => ?_, fun hj h1 => ?_, fun hj => ?_⟩
  · obtain ⟨p, q, s, P⟩ := L.parts hj
    exact ⟨evaluate_after _ _ P.hp P.hs P.hq f0 f1 f2 h1 h2, evaluate_after _ _ P.hp P.hs P.hq f0 f1 f2 h1 h2,
      evaluate_after _ _ P.hp P.hs P.hq f0 f1 f2 h1 h2⟩
  · obtain ⟨p, q, s, P⟩ := L.parts hj
    exact ⟨evaluate_outside _ _ P.hp P.hs P.hq h1, evaluate_outside _ _ P.hp P.hs P.hq h1, evaluate_outside _ _ P.hp P.hs P.hq h1⟩
  · have hl : tr.leading.length ≤ j := by
      have := L.leading.length_eq
      rw [List.length_range] at this
      omega
    exact ⟨evaluate_beyond _ _ .debug hl t, evaluate_beyond _ _ .release hl t⟩

/-- **C83.** A debug build refuses the waypoints exactly if they are not usable: fewer than five, a nominal rate
that is not positive, or a segment without duration in which no joint moves. -/
theorem C83_refused (d passes : ℕ) (amax : List ℝ) (tau : ℝ) (ws : List WayPoint) (hd : 0 < d) (ht : 0 < tau) (hf : ∀ w ∈ ws, Fits d w) :
    tensionSplineInterpolation .debug d amax tau passes ws = some (.throw .configurationError) ↔ ¬ Usable 5 ws := by
  constructor
  · intro h hu
    obtain ⟨ws', hi, hr, hk⟩ := initialised .debug (by norm_num) hf hu
    rw [interpolate_build .debug amax tau passes hu hi] at h
    rcases build_spec .debug hd amax ht passes hr (by rw [← hk.length_eq]; have := hu.1; omega) with h' | ⟨tr, ws1, start, t, h', -⟩ <;>
      rw [h'] at h <;> cases h
  · intro hu
    unfold tensionSplineInterpolation
    by_cases h5 : 5 ≤ ws.length
    · by_cases hr : RatesPositive ws
      · have hv : validate ws 5 = .ok true := (validate_iff (by norm_num)).2 ⟨h5, hr⟩
        obtain ⟨ws', ok, hi, -, -, -, hbad⟩ := C69_durations_partial .debug d 5 ws hf hv
        have hok : ok = false := by
          rw [hbad]
          by_contra hcon
          refine hu ⟨h5, hr, fun i w next hs => ?_⟩
          by_contra hc
          rw [not_or, not_lt] at hc
          refine hcon ⟨i, w, next, hs, hc.1, fun j a b r hm => ?_⟩
          by_contra hab
          exact hc.2 ⟨j, a, b, r, hm, hab⟩
        subst hok
        rw [hv, hi]
        simp [assertThrow, h5, Outcome.bind]
      · have hv : validate ws 5 = .ok false := by
          obtain ⟨b, hb⟩ := validate_total (ws := ws) (k := 5) (by norm_num)
          cases b with
          | false => exact hb
          | true => exact absurd ((validate_iff (by norm_num)).1 hb).2 hr
        rw [hv]
        simp [assertThrow, h5, Outcome.bind]
    · simp [assertThrow, h5]

/-- **C83.** With usable waypoints a call either does not return or makes a trajectory; a release build gets by
with three of them. -/
theorem C83_outcomes (mode : Mode) (d passes : ℕ) (amax : List ℝ) (tau : ℝ) (ws : List WayPoint) (hd : 0 < d) (ht : 0 < tau)
    (hf : ∀ w ∈ ws, Fits d w) (hu : Usable 5 ws ∨ mode = .release ∧ Usable 3 ws) :
    tensionSplineInterpolation mode d amax tau passes ws = none ∨
    ∃ tr, tensionSplineInterpolation mode d amax tau passes ws = some (.ok tr) := by
  have hu3 : Usable 3 ws := by
    rcases hu with hu | hu
    · exact ⟨by have := hu.1; omega, hu.2⟩
    · exact hu.2
  obtain ⟨ws', hr, hk, e⟩ := entered mode amax tau passes hf hu3 (by
    rcases hu with hu | hu
    · exact Or.inr hu.1
    · exact Or.inl hu.1)
  rw [e]
  rcases build_spec mode hd amax ht passes hr (by rw [← hk.length_eq]; exact hu3.1) with h' | ⟨tr, ws1, start, t, h', -⟩
  · exact Or.inl h'
  · exact Or.inr ⟨tr, h'⟩

/-- **C83.** A release build does not check: two waypoints, which the linear interpolation would take, are
undefined behaviour. -/
theorem C83_fails_refused (d passes : ℕ) (amax : List ℝ) (tau : ℝ) (ws : List WayPoint) (hd : 0 < d) (hf : ∀ w ∈ ws, Fits d w)
    (h2 : ws.length = 2) (hu : Usable 2 ws) :
    tensionSplineInterpolation .release d amax tau (passes + 1) ws = some .ub := by
  obtain ⟨ws', hi, hr, hk⟩ := initialised .release (le_refl 2) hf hu
  have hl : ws'.length = 2 := by rw [← hk.length_eq, h2]
  obtain ⟨b, hb⟩ := validate_total (ws := ws) (k := 5) (by norm_num)
  have hg : generate .release d tau 0 ws' = .ub := by
    unfold generate
    obtain ⟨n, rfl⟩ : ∃ n, d = n + 1 := ⟨d - 1, by omega⟩
    rw [List.range_succ_eq_map, splineLoop]
    have hx : (knotTimes 0 (durations ws')).length = 2 := by rw [knotTimes_length, durations_length, hl]
    have : TensionSpline.natural .release (knotTimes 0 (durations ws')) (jointValues ws' 0) tau = .ub := by
      unfold TensionSpline.natural TensionSpline.data
      rw [if_neg (by simp), if_pos (Or.inl (by omega))]
      rfl
    rw [this]
    rfl
  unfold tensionSplineInterpolation
  rw [hb, hi]
  show build .release d amax tau (passes + 1) ws' = _
  unfold build
  rw [knotLoop, hg]
  rfl

/-- Five waypoints of one joint: with a large limit there is a trajectory through them. -/
example : ∃ (amax : List ℝ) (tr : Trajectory) (t0 : ℝ), tensionSplineInterpolation .debug 1 amax 2 1 bent = some (.ok tr) ∧
    tr.value .debug 0 0 = .ok 0 ∧ tr.value .debug 0 tr.duration = .ok 3 ∧ 0 < t0 ∧
    tr.value .debug 0 (t0 + ((tr.waypoints.take 3).map WayPoint.duration).sum) = .ok 2 ∧
    OnceSmooth (tr.value .debug 0) (tr.rate .debug 0) 0 tr.duration := by
  obtain ⟨A, hA⟩ := C83_large_limits_partial .debug 1 2 bent one_pos two_pos bent_fits bent_usable
  obtain ⟨tr, htr, hj⟩ := hA [A + 1] (fun j hj => by
    obtain rfl : j = 0 := by omega
    exact ⟨A + 1, rfl, by linarith⟩)
  have hu3 : Usable 3 bent := ⟨by simp [bent], bent_usable.2⟩
  obtain ⟨-, -, he⟩ := C83_ends .debug 1 1 [A + 1] 2 bent tr one_pos two_pos bent_fits hu3 htr
  obtain ⟨t0, h0, hw⟩ := C83_waypoints .debug 1 1 [A + 1] 2 bent tr one_pos two_pos bent_fits hu3 htr
  obtain ⟨a, -, -, b, -, -⟩ := he 0 one_pos _ _ 0 3 rfl rfl rfl rfl
  exact ⟨_, tr, t0, htr, a, b, h0, (hw 3 ⟨[2], [0], [1], 1, true⟩ rfl (by norm_num) (by simp [bent])).2 0 one_pos 2 rfl, (hj 0 one_pos _ rfl).1⟩

/-- Two waypoints are usable, but not for this interpolation. -/
example : tensionSplineInterpolation .release 1 [5] 2 1 [⟨[0], [0], [1], 1, true⟩, ⟨[1], [0], [1], 0, true⟩] = some .ub ∧
    tensionSplineInterpolation .debug 1 [5] 2 1 [⟨[0], [0], [1], 1, true⟩, ⟨[1], [0], [1], 0, true⟩] = some (.throw .configurationError) := by
  have hf : ∀ w ∈ [(⟨[0], [0], [1], 1, true⟩ : WayPoint), ⟨[1], [0], [1], 0, true⟩], Fits 1 w := by
    intro w hw
    simp only [List.mem_cons, List.not_mem_nil, or_false] at hw
    rcases hw with rfl | rfl <;> exact ⟨rfl, rfl, rfl⟩
  have hg : ∀ (i : ℕ) (w : WayPoint), [(⟨[0], [0], [1], 1, true⟩ : WayPoint), ⟨[1], [0], [1], 0, true⟩][i]? = some w → i + 1 < 2 →
      w.duration = 1 ∧ w.nominal = [1] := by
    intro i w hw hi
    obtain rfl : i = 0 := by omega
    cases hw
    exact ⟨rfl, rfl⟩
  refine ⟨C83_fails_refused 1 0 [5] 2 _ one_pos hf rfl ⟨le_refl 2, ?_, ?_⟩, (C83_refused 1 1 [5] 2 _ one_pos two_pos hf).2 ?_⟩
  · intro i w hw hi r hr
    rw [(hg i w hw hi).2] at hr
    simp at hr; rw [hr]; norm_num
  · intro i w next hs
    left
    rw [(hg i w hs.1 (List.getElem?_eq_some_iff.1 hs.2).1).1]
    norm_num
  · intro hu
    have := hu.1
    simp at this

end Ecl.Props
