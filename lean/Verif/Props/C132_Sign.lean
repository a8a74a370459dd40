import Verif.Props.C132_TensionReturns
import Verif.Props.C141_Tension

/-!
# C132: the tension may be negative
-/
set_option autoImplicit false

namespace Ecl.Props.C132
open Ecl Ecl.Poly Ecl.Manip Ecl.TensionTrajectory

/-- The same spline with the opposite tension. -/
noncomputable def opposite (s : TensionSpline.Spline) : TensionSpline.Spline := { s with tension := -s.tension }

theorem value_opposite (mode : Mode) (s : TensionSpline.Spline) (x : ℝ) :
    TensionSpline.value mode (opposite s) x = TensionSpline.value mode s x := by
  simp only [TensionSpline.value, opposite, C141.sign_value]
  rfl

theorem slope_opposite (mode : Mode) (s : TensionSpline.Spline) (x : ℝ) :
    TensionSpline.slope mode (opposite s) x = TensionSpline.slope mode s x := by
  simp only [TensionSpline.slope, opposite, C141.sign_slope]
  rfl

theorem curvature_opposite (mode : Mode) (s : TensionSpline.Spline) (x : ℝ) :
    TensionSpline.curvature mode (opposite s) x = TensionSpline.curvature mode s x := by
  simp only [TensionSpline.curvature, opposite, C141.sign_curvature]
  rfl

theorem natural_opposite (mode : Mode) (xs ys : List ℝ) (tau : ℝ) :
    TensionSpline.natural mode xs ys (-tau) = (TensionSpline.natural mode xs ys tau).bind fun s => .ok (opposite s) := by
  simp only [TensionSpline.natural, C141.sign_data]
  cases TensionSpline.data mode xs ys tau <;> rfl

theorem splineLoop_opposite (mode : Mode) (xs : List ℝ) (ys : ℕ → List ℝ) (tau : ℝ) : ∀ js : List ℕ,
    splineLoop mode xs ys (-tau) js = (splineLoop mode xs ys tau js).bind fun ss => .ok (ss.map opposite)
  | [] => rfl
  | j :: js => by
    simp only [splineLoop, natural_opposite, splineLoop_opposite mode xs ys tau js]
    cases TensionSpline.natural mode xs (ys j) tau with
    | ok s => cases splineLoop mode xs ys tau js <;> rfl
    | throw e => rfl
    | ub => rfl

theorem generate_opposite (mode : Mode) (d : ℕ) (tau t : ℝ) (ws : List WayPoint) :
    generate mode d (-tau) t ws = (generate mode d tau t ws).bind fun ss => .ok (ss.map opposite) :=
  splineLoop_opposite ..

theorem get_opposite (mode : Mode) (ss : List TensionSpline.Spline) (j : ℕ) :
    Arr.get mode (ss.map opposite) j = (Arr.get mode ss j).bind fun s => .ok (opposite s) := by
  simp only [Arr.get, Arr.rawGet, List.length_map, List.getElem?_map]
  cases assertThrow mode (decide (j < ss.length)) Flag.outOfRange with
  | ok u => cases ss[j]? <;> rfl
  | throw e => rfl
  | ub => rfl

theorem bind_bind {α β γ : Type} (o : Outcome α) (f : α → Outcome β) (g : β → Outcome γ) :
    (o.bind f).bind g = o.bind fun a => (f a).bind g := by
  cases o <;> rfl

theorem violating_opposite (mode : Mode) (amax : List ℝ) (ss : List TensionSpline.Spline) (x : ℝ) : ∀ js : List ℕ,
    violating mode amax (ss.map opposite) x js = violating mode amax ss x js
  | [] => rfl
  | j :: js => by
    simp only [violating, get_opposite, bind_bind, violating_opposite mode amax ss x js]
    simp only [Outcome.bind, curvature_opposite]

theorem knotPass_opposite (mode : Mode) (d : ℕ) (amax : List ℝ) (ss : List TensionSpline.Spline) :
    ∀ (is : List (ℕ × ℝ)) (ws : List WayPoint) (kept : Bool),
      knotPass mode d amax (ss.map opposite) is ws kept = knotPass mode d amax ss is ws kept
  | [], ws, kept => rfl
  | (i, x) :: is, ws, kept => by
    simp only [knotPass, violating_opposite, knotPass_opposite mode d amax ss is]

theorem knotLoop_opposite (mode : Mode) (d : ℕ) (amax : List ℝ) (tau : ℝ) : ∀ (passes : ℕ) (ws : List WayPoint),
    knotLoop mode d amax (-tau) passes ws = knotLoop mode d amax tau passes ws
  | 0, _ => rfl
  | passes + 1, ws => by
    have e : ((generate mode d (-tau) 0 ws).bind fun ss => (Arr.get mode ss 0).bind fun s =>
        knotPass mode d amax ss (innerKnots s.domain) ws true) =
        ((generate mode d tau 0 ws).bind fun ss => (Arr.get mode ss 0).bind fun s =>
        knotPass mode d amax ss (innerKnots s.domain) ws true) := by
      rw [generate_opposite, bind_bind]
      congr 1
      funext ss
      show ((Arr.get mode (ss.map opposite) 0).bind fun s => knotPass mode d amax (ss.map opposite) (innerKnots s.domain) ws true) = _
      rw [get_opposite, bind_bind]
      simp only [Outcome.bind, knotPass_opposite]
      rfl
    simp only [knotLoop, e, knotLoop_opposite mode d amax tau passes]

theorem leadingQuintic_opposite (mode : Mode) (w0 : WayPoint) (ss : List TensionSpline.Spline) (t : ℝ) :
    leadingQuintic mode w0 (ss.map opposite) t = leadingQuintic mode w0 ss t := by
  funext j
  simp only [leadingQuintic, get_opposite, bind_bind]
  simp only [Outcome.bind, slope_opposite, value_opposite]

theorem trailingQuintic_opposite (mode : Mode) (wn : WayPoint) (ss : List TensionSpline.Spline) (tf t : ℝ) :
    trailingQuintic mode wn (ss.map opposite) tf t = trailingQuintic mode wn ss tf t := by
  funext j
  simp only [trailingQuintic, get_opposite, bind_bind]
  simp only [Outcome.bind, slope_opposite, value_opposite]

theorem leadingAttempt_opposite (mode : Mode) (d : ℕ) (amax : List ℝ) (tau : ℝ) (ws : List WayPoint) :
    leadingAttempt mode d amax (-tau) ws = leadingAttempt mode d amax tau ws := by
  funext i
  simp only [leadingAttempt, generate_opposite, bind_bind]
  simp only [Outcome.bind, leadingQuintic_opposite]

theorem leadingLoop_opposite (mode : Mode) (d : ℕ) (amax : List ℝ) (tau : ℝ) : ∀ (passes : ℕ) (ws : List WayPoint),
    leadingLoop mode d amax (-tau) passes ws = leadingLoop mode d amax tau passes ws
  | 0, _ => rfl
  | passes + 1, ws => by
    simp only [leadingLoop, leadingAttempt_opposite, leadingLoop_opposite mode d amax tau passes]

theorem trailingAttempt_opposite (mode : Mode) (d : ℕ) (amax : List ℝ) (ws : List WayPoint)
    (ss : List TensionSpline.Spline) :
    trailingAttempt mode d amax ws (ss.map opposite) = trailingAttempt mode d amax ws ss := by
  funext i
  simp only [trailingAttempt, get_opposite, bind_bind]
  simp only [Outcome.bind, trailingQuintic_opposite]
  rfl

/-- The same trajectory with splines of the opposite tension. -/
noncomputable def turned (tr : Trajectory) : Trajectory := { tr with middle := tr.middle.map opposite }

/-- What a call that returns gives, with splines of the opposite tension. -/
noncomputable def turnedResult (r : Option (Outcome Trajectory)) : Option (Outcome Trajectory) :=
  r.map fun o => o.bind fun tr => .ok (turned tr)

theorem trailingLoop_opposite (mode : Mode) (d : ℕ) (amax : List ℝ) (tau lead : ℝ) (qs : List (Coeffs ℝ)) :
    ∀ (passes : ℕ) (ws : List WayPoint),
      trailingLoop mode d amax (-tau) lead qs passes ws = turnedResult (trailingLoop mode d amax tau lead qs passes ws)
  | 0, _ => rfl
  | passes + 1, ws => by
    simp only [trailingLoop, generate_opposite]
    cases generate mode d tau (2 * lead / 2) ws with
    | ub => rfl
    | throw e => rfl
    | ok ss =>
      simp only [Outcome.bind, trailingAttempt_opposite]
      cases attempts (trailingAttempt mode d amax ws ss) 5 1 with
      | ub => rfl
      | throw e => rfl
      | ok r =>
        cases r with
        | none => exact trailingLoop_opposite mode d amax tau lead qs passes _
        | some r =>
          simp only [get_opposite]
          cases Arr.get mode ss 0 <;> rfl

theorem interpolation_opposite (mode : Mode) (d : ℕ) (amax : List ℝ) (tau : ℝ) (passes : ℕ) (ws : List WayPoint) :
    tensionSplineInterpolation mode d amax (-tau) passes ws =
      turnedResult (tensionSplineInterpolation mode d amax tau passes ws) := by
  have b : ∀ ws, build mode d amax (-tau) passes ws = turnedResult (build mode d amax tau passes ws) := by
    intro ws
    simp only [build, knotLoop_opposite, leadingLoop_opposite, trailingLoop_opposite]
    split
    · rfl
    · rfl
    · rfl
    · split <;> rfl
  simp only [tensionSplineInterpolation, b]
  split
  · rfl
  · rfl
  · split
    · rfl
    · rfl
    · split
      · rfl
      · rfl
      · split <;> rfl

end Ecl.Props.C132

namespace Ecl.Props
open Ecl Ecl.Poly Ecl.Manip Ecl.Spec Ecl.TensionTrajectory C132

/-- **C132.** The sign of the tension does not matter: with the opposite tension the call returns after the same passes, and
refuses the same; the trajectories have the same waypoints, quintics and times, and splines that agree everywhere. -/
theorem C132_sign (mode : Mode) (d : ℕ) (amax : List ℝ) (tau : ℝ) (passes : ℕ) (ws : List WayPoint) :
    (∀ r, (∀ tr, r ≠ .ok tr) → (tensionSplineInterpolation mode d amax (-tau) passes ws = some r ↔
      tensionSplineInterpolation mode d amax tau passes ws = some r)) ∧
    (tensionSplineInterpolation mode d amax (-tau) passes ws = none ↔
      tensionSplineInterpolation mode d amax tau passes ws = none) ∧
    ∀ tr, tensionSplineInterpolation mode d amax tau passes ws = some (.ok tr) →
      ∃ tr', tensionSplineInterpolation mode d amax (-tau) passes ws = some (.ok tr') ∧ tr'.waypoints = tr.waypoints ∧
        tr'.leading = tr.leading ∧ tr'.trailing = tr.trailing ∧ tr'.first = tr.first ∧ tr'.second = tr.second ∧
        tr'.duration = tr.duration ∧ tr'.middle.length = tr.middle.length ∧
        ∀ (j : ℕ) (s s' : TensionSpline.Spline), tr.middle[j]? = some s → tr'.middle[j]? = some s' → ∀ x,
          TensionSpline.value mode s' x = TensionSpline.value mode s x ∧
          TensionSpline.slope mode s' x = TensionSpline.slope mode s x ∧
          TensionSpline.curvature mode s' x = TensionSpline.curvature mode s x := by
  rw [interpolation_opposite]
  cases tensionSplineInterpolation mode d amax tau passes ws with
  | none => simp [turnedResult]
  | some r =>
    cases r with
    | ub =>
      refine ⟨fun r _ => ?_, by simp [turnedResult], by simp⟩
      simp [turnedResult, Outcome.bind]
    | throw e =>
      refine ⟨fun r _ => ?_, by simp [turnedResult], by simp⟩
      simp [turnedResult, Outcome.bind]
    | ok tr =>
      refine ⟨fun r hr => ?_, by simp [turnedResult], ?_⟩
      · simp only [turnedResult, Option.map_some, Outcome.bind, Option.some.injEq]
        exact ⟨fun e => absurd e.symm (hr _), fun e => absurd e.symm (hr _)⟩
      · intro tr' e
        simp only [Option.some.injEq, Outcome.ok.injEq] at e
        subst e
        refine ⟨turned tr, rfl, rfl, rfl, rfl, rfl, rfl, rfl, by simp [turned], ?_⟩
        intro j s s' h1 h2 x
        simp only [turned, List.getElem?_map, h1, Option.map_some, Option.some.injEq] at h2
        subst h2
        exact ⟨value_opposite .., slope_opposite .., curvature_opposite ..⟩

/-- **C132.** So the decision of `C132_decision` holds for every tension but zero. -/
theorem C132_decision_nonzero (mode : Mode) (d : ℕ) (amax : List ℝ) (tau : ℝ) (ws : List WayPoint) (hd : 0 < d)
    (ht : tau ≠ 0) (hf : ∀ w ∈ ws, Fits d w) (hu : Usable 5 ws ∨ mode = .release ∧ Usable 3 ws)
    (hl : d ≤ amax.length) :
    (∃ passes r, tensionSplineInterpolation mode d amax tau passes ws = some r) ↔
      ∀ j < d, ∀ limit, amax[j]? = some limit → 0 < limit := by
  rcases lt_or_gt_of_ne ht with h | h
  · rw [← C132_decision mode d amax (-tau) ws hd (by linarith) hf hu hl]
    have e : ∀ passes, tensionSplineInterpolation mode d amax tau passes ws =
        turnedResult (tensionSplineInterpolation mode d amax (-tau) passes ws) := by
      intro passes
      have := interpolation_opposite mode d amax (-tau) passes ws
      rwa [neg_neg] at this
    simp only [e, turnedResult]
    constructor
    · rintro ⟨passes, r, h⟩
      cases k : tensionSplineInterpolation mode d amax (-tau) passes ws with
      | none => simp [k] at h
      | some r => exact ⟨passes, r, k⟩
    · rintro ⟨passes, r, h⟩
      exact ⟨passes, _, by rw [h]; rfl⟩
  · exact C132_decision mode d amax tau ws hd h hf hu hl

example : ∃ passes r, tensionSplineInterpolation .debug 1 [1 / 1000] (-2) passes bent = some r := by
  rw [C132_decision_nonzero .debug 1 _ (-2) bent one_pos (by norm_num) bent_fits (Or.inl bent_usable) (by simp)]
  intro j hj limit h
  obtain rfl : j = 0 := by omega
  simp at h
  rw [← h]; norm_num

end Ecl.Props
