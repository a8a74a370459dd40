import Verif.Lemmas.NanRealTension
import Verif.Lemmas.LinearTrajectory

/-! # Trajectories over an arbitrary arithmetic, run with the real numbers -/
set_option autoImplicit false
set_option linter.unusedSimpArgs false

namespace Ecl.NanReal
open Ecl
open Ecl.CubicSpline (at')

theorem wayDuration (w : Manip.WayPoint) : (way w).duration = w.duration := rfl
theorem lit0 : reals.lit 0 = 0 := by simp [reals]

theorem stretchOne_eq (q : ℚ) (r : ℝ) (h : (q : ℝ) = r) (w : Manip.WayPoint) :
    Nan.stretchOne reals q (way w) = way (LinearTrajectory.stretchOne r w) := by
  subst h; rfl

theorem stretched_eq (q : ℚ) (r : ℝ) (h : (q : ℝ) = r) (ws : List Manip.WayPoint) (i : ℕ) :
    (ws.map way).modify i (Nan.stretchOne reals q) = (ws.modify i (LinearTrajectory.stretchOne r)).map way :=
  map_modify' way _ _ (stretchOne_eq q r h) ws i

/-! ## Tension splines -/
section Tension
open TensionTrajectory

theorem wp_eq (ws : List Manip.WayPoint) (i : ℕ) : Nan.wp reals (ws.map way) i = way (wp ws i) := by
  unfold Nan.wp wp
  simp only [List.getD_eq_getElem?_getD, List.getElem?_map]
  cases ws[i]? <;> simp [way, reals]

theorem knotTimes_eq : ∀ (ds : List ℝ) (t : ℝ), Nan.knotTimes reals t ds = knotTimes t ds := by
  intro ds
  induction ds with
  | nil => intro t; rfl
  | cons d ds ih => intro t; unfold Nan.knotTimes knotTimes; rw [ih]; rfl

theorem tensionLoop_eq (mode : Mode) (xs : List ℝ) (ys : ℕ → List ℝ) (tau : ℝ) : ∀ js : List ℕ,
    Nan.tensionLoop reals mode xs ys tau js = into (List.map tension) (splineLoop mode xs ys tau js) := by
  intro js
  induction js with
  | nil => rfl
  | cons j js ih =>
    unfold Nan.tensionLoop splineLoop
    rw [natural_eq, into_bind, bind_into]
    apply bind_congr
    intro s
    rw [ih, into_bind, bind_into]
    rfl

theorem tensionSplines_eq (mode : Mode) (d : ℕ) (tau t : ℝ) (ws : List Manip.WayPoint) :
    Nan.tensionSplines reals mode d tau t (ws.map way) = into (List.map tension) (generate mode d tau t ws) := by
  unfold Nan.tensionSplines generate
  rw [tensionLoop_eq, knotTimes_eq, ← List.map_dropLast, List.map_map]
  congr 2
  funext j
  rw [List.map_map]
  unfold jointValues
  apply List.map_congr_left
  intro w _
  simp only [Function.comp, get_eq]
  rfl

theorem nth_eq (mode : Mode) (ss : List TensionSpline.Spline) (j : ℕ) :
    Nan.nth mode (ss.map tension) j = into tension (Arr.get mode ss j) := by
  unfold Nan.nth
  rw [List.getElem?_map]
  by_cases h : j < ss.length
  · cases mode <;> simp [Arr.get, assertThrow, h, Arr.rawGet, bind, Outcome.bind, into]
  · have h' : ss[j]? = none := List.getElem?_eq_none (by omega)
    cases mode <;> simp [Arr.get, assertThrow, h, h', Arr.rawGet, bind, Outcome.bind, into, Nan.beyond]

theorem violating_eq (mode : Mode) (amax : List ℝ) (ss : List TensionSpline.Spline) (x : ℝ) : ∀ js : List ℕ,
    Nan.violating reals mode amax (ss.map tension) x js = violating mode amax ss x js := by
  intro js
  induction js with
  | nil => rfl
  | cons j js ih =>
    unfold Nan.violating violating
    rw [nth_eq, into_bind]
    apply bind_congr
    intro s
    rw [tcurvature_eq]
    apply bind_congr
    intro a
    simp only [lt_r, get_eq, ih, abs_r]

theorem stretchAt_eq (ws : List Manip.WayPoint) (i j : ℕ) :
    Nan.stretchAt reals (ws.map way) i j = (stretchAt ws i j).map way := by
  unfold Nan.stretchAt stretchAt
  simp only [wp_eq, get_eq, lt_r, abs_r, div_r, sub_r, stretched_eq (11 / 10) (11 / 10) (by norm_num)]
  set before := |(at' (wp ws i).angles j - at' (wp ws (i - 1)).angles j) / (wp ws (i - 1)).duration|
  set after := |(at' (wp ws (i + 1)).angles j - at' (wp ws i).angles j) / (wp ws i).duration|
  by_cases h : after < before
  · rw [if_pos (show before > after from h)]
    exact if_pos h
  · rw [if_neg (show ¬ before > after from h)]
    exact if_neg h

/-- Waypoints with a flag, translated. -/
def flagged (p : List Manip.WayPoint × Bool) : List (Nan.WayPoint ℝ) × Bool := (p.1.map way, p.2)

theorem knotPass_eq (mode : Mode) (d : ℕ) (amax : List ℝ) (ss : List TensionSpline.Spline) :
    ∀ (is : List (ℕ × ℝ)) (ws : List Manip.WayPoint) (kept : Bool),
    Nan.knotPass reals mode d amax (ss.map tension) is (ws.map way) kept = into flagged (knotPass mode d amax ss is ws kept) := by
  intro is
  induction is with
  | nil => intro ws kept; rfl
  | cons p is ih =>
    intro ws kept
    unfold Nan.knotPass knotPass
    rw [violating_eq, bind_into]
    apply bind_congr
    intro v
    cases v with
    | none => exact ih _ _
    | some j => simp only [stretchAt_eq]; exact ih _ _

theorem innerKnots_eq (l : List ℝ) : Nan.innerKnots reals l = innerKnots l := by
  unfold Nan.innerKnots innerKnots
  rw [get_eq]

theorem knotLoop_eq (mode : Mode) (d : ℕ) (amax : List ℝ) (tau : ℝ) : ∀ (passes : ℕ) (ws : List Manip.WayPoint),
    Nan.knotLoop reals mode d amax tau passes (ws.map way) = (knotLoop mode d amax tau passes ws).map (into (List.map way)) := by
  intro passes
  induction passes with
  | zero => intro ws; rfl
  | succ passes ih =>
    intro ws
    unfold Nan.knotLoop knotLoop
    have h : ((Nan.tensionSplines reals mode d tau (reals.lit 0) (ws.map way)).bind fun ss => (Nan.nth mode ss 0).bind fun s =>
          Nan.knotPass reals mode d amax ss (Nan.innerKnots reals s.domain) (ws.map way) true) =
        into flagged ((generate mode d tau 0 ws).bind fun ss => (Arr.get mode ss 0).bind fun s =>
          knotPass mode d amax ss (innerKnots s.domain) ws true) := by
      rw [lit0, tensionSplines_eq, into_bind, bind_into]
      apply bind_congr
      intro ss
      rw [nth_eq, into_bind, bind_into]
      apply bind_congr
      intro s
      rw [innerKnots_eq, knotPass_eq]
      rfl
    rw [h]
    generalize ((generate mode d tau 0 ws).bind fun ss => (Arr.get mode ss 0).bind fun s =>
          knotPass mode d amax ss (innerKnots s.domain) ws true) = r
    rcases r with ⟨ws', _ | _⟩ | e | _
    · exact ih _
    · rfl
    · rfl
    · rfl

theorem quintics_eq (amax : List ℝ) (q q' : ℕ → Outcome (ℝ × ℝ × (ℕ → ℝ))) (h : ∀ j, q j = q' j) : ∀ js : List ℕ,
    Nan.quintics reals amax q js = quintics amax q' js := by
  intro js
  induction js with
  | nil => rfl
  | cons j js ih =>
    unfold Nan.quintics quintics
    rw [h, ih, get_eq]
    apply bind_congr
    intro p
    by_cases hw : SmoothLinear.Within (at' amax j) p.1 p.2.1 p.2.2
    · rw [if_pos hw, if_pos ((within_eq _ _ _ _).2 hw)]
    · rw [if_neg hw, if_neg fun g => hw ((within_eq _ _ _ _).1 g)]

theorem firstAttempt_eq (f g : ℕ → Outcome (ℝ × Option (List (ℕ → ℝ)))) (h : ∀ i, f i = g i) : ∀ left i,
    Nan.firstAttempt f left i = attempts g left i := by
  intro left
  induction left with
  | zero => intro i; rfl
  | succ left ih =>
    intro i
    unfold Nan.firstAttempt attempts
    rw [h, ih]
    apply bind_congr
    rintro ⟨a, _ | b⟩ <;> rfl

theorem leadingQuintic_eq (mode : Mode) (w0 : Manip.WayPoint) (ss : List TensionSpline.Spline) (t : ℝ) (j : ℕ) :
    Nan.leadingQuintic reals mode (way w0) (ss.map tension) t j = leadingQuintic mode w0 ss t j := by
  unfold Nan.leadingQuintic leadingQuintic
  simp only [nth_eq, into_bind, quintic_eq, lit0, mul_r, get_eq, tslope_eq, tvalue_eq, lit_r]
  push_cast
  rfl

theorem leadingAttempt_eq (mode : Mode) (d : ℕ) (amax : List ℝ) (tau : ℝ) (ws : List Manip.WayPoint) (i : ℕ) :
    Nan.leadingAttempt reals mode d amax tau (ws.map way) i = leadingAttempt mode d amax tau ws i := by
  unfold Nan.leadingAttempt leadingAttempt
  simp only [wp_eq, tensionSplines_eq, into_bind, mul_r, div_r, lit_r, wayDuration]
  push_cast
  apply bind_congr
  intro ss
  rw [quintics_eq amax _ _ fun j => leadingQuintic_eq mode _ ss _ j]

/-- The result of the first loop, translated. -/
def led (p : List Manip.WayPoint × ℝ × List (ℕ → ℝ)) : List (Nan.WayPoint ℝ) × ℝ × List (ℕ → ℝ) := (p.1.map way, p.2)

theorem leadingLoop_eq (mode : Mode) (d : ℕ) (amax : List ℝ) (tau : ℝ) : ∀ (passes : ℕ) (ws : List Manip.WayPoint),
    Nan.leadingLoop reals mode d amax tau passes (ws.map way) = (leadingLoop mode d amax tau passes ws).map (into led) := by
  intro passes
  induction passes with
  | zero => intro ws; rfl
  | succ passes ih =>
    intro ws
    unfold Nan.leadingLoop leadingLoop
    rw [firstAttempt_eq _ _ fun i => leadingAttempt_eq mode d amax tau ws i]
    rcases attempts (leadingAttempt mode d amax tau ws) 5 1 with (_ | ⟨t, qs⟩) | e | _
    · simp only [stretched_eq (11 / 10) (11 / 10) (by norm_num)]
      exact ih _
    · rfl
    · rfl
    · rfl

theorem trailingQuintic_eq (mode : Mode) (wn : Manip.WayPoint) (ss : List TensionSpline.Spline) (tf t : ℝ) (j : ℕ) :
    Nan.trailingQuintic reals mode (way wn) (ss.map tension) tf t j = trailingQuintic mode wn ss tf t j := by
  unfold Nan.trailingQuintic trailingQuintic
  simp only [nth_eq, into_bind, quintic_eq, lit0, sub_r, add_r, get_eq, tslope_eq, tvalue_eq]
  rfl

theorem trailingAttempt_eq (mode : Mode) (d : ℕ) (amax : List ℝ) (ws : List Manip.WayPoint) (ss : List TensionSpline.Spline) (i : ℕ) :
    Nan.trailingAttempt reals mode d amax (ws.map way) (ss.map tension) i = trailingAttempt mode d amax ws ss i := by
  unfold Nan.trailingAttempt trailingAttempt
  simp only [wp_eq, nth_eq, into_bind, mul_r, div_r, lit_r, wayDuration, List.length_map]
  push_cast
  apply bind_congr
  intro s
  rw [quintics_eq amax _ _ fun j => trailingQuintic_eq mode _ ss _ _ j]
  rfl

theorem trailingLoop_eq (mode : Mode) (d : ℕ) (amax : List ℝ) (tau lead : ℝ) (qs : List (ℕ → ℝ)) :
    ∀ (passes : ℕ) (ws : List Manip.WayPoint), Nan.trailingLoop reals mode d amax tau lead qs passes (ws.map way) =
      (trailingLoop mode d amax tau lead qs passes ws).map (into tensionTrajectory) := by
  intro passes
  induction passes with
  | zero => intro ws; rfl
  | succ passes ih =>
    intro ws
    unfold Nan.trailingLoop trailingLoop
    simp only [mul_r, div_r, lit_r, tensionSplines_eq]
    push_cast
    rcases generate mode d tau (2 * lead / 2) ws with ss | e | _
    · simp only [into]
      rw [firstAttempt_eq _ _ fun i => trailingAttempt_eq mode d amax ws ss i]
      rcases attempts (trailingAttempt mode d amax ws ss) 5 1 with (_ | ⟨t, ps⟩) | e | _
      · simp only [List.length_map, stretched_eq (11 / 10) (11 / 10) (by norm_num)]
        exact ih _
      · simp only [nth_eq, into_bind, Option.map_some, bind_into, sub_r, add_r]
        rcases Arr.get mode ss 0 with s | e | _ <;> simp [into, tensionTrajectory, tension, Outcome.bind]
      · rfl
      · rfl
    · rfl
    · rfl

theorem build_eq (mode : Mode) (d : ℕ) (amax : List ℝ) (tau : ℝ) (passes : ℕ) (ws : List Manip.WayPoint) :
    Nan.build reals mode d amax tau passes (ws.map way) = (build mode d amax tau passes ws).map (into tensionTrajectory) := by
  unfold Nan.build build
  rw [knotLoop_eq]
  rcases knotLoop mode d amax tau passes ws with _ | (ws1 | e | _)
  · rfl
  · simp only [Option.map_some, into, configureEnds_eq, leadingLoop_eq]
    rcases leadingLoop mode d amax tau passes (LinearTrajectory.configureEnds ws1) with _ | (⟨ws2, t, qs⟩ | e | _)
    · rfl
    · exact trailingLoop_eq _ _ _ _ _ _ _ _
    · rfl
    · rfl
  · rfl
  · rfl

theorem tensionInterpolation_eq (mode : Mode) (d : ℕ) (amax : List ℝ) (tau : ℝ) (passes : ℕ) (ws : List Manip.WayPoint)
    (hf : ∀ w ∈ ws, Spec.Fits d w) :
    Nan.tensionSplineInterpolation reals mode d amax tau passes (ws.map way) =
      (tensionSplineInterpolation mode d amax tau passes ws).map (into tensionTrajectory) := by
  unfold Nan.tensionSplineInterpolation tensionSplineInterpolation
  rw [validate_eq, List.length_map]
  obtain ⟨ws', b, h1, h2⟩ := initialise_eq mode d ws hf
  rw [h2]
  rcases assertThrow mode (decide (ws.length ≥ 5)) .configurationError with _ | e | _
  · dsimp only
    rcases (Manip.validate ws 5).bind fun b => assertThrow mode b .configurationError with _ | e | _
    · dsimp only
      unfold Manip.initialiseDurations
      by_cases h0 : ws = []
      · simp [h0, into]
      · rw [if_neg h0, if_neg (by simpa using h0), h1]
        dsimp only
        rcases assertThrow mode b .configurationError with _ | e | _
        · exact build_eq _ _ _ _ _ _
        · rfl
        · rfl
    · rfl
    · rfl
  · rfl
  · rfl

end Tension

/-! ## Linear splines -/
section Linear
open LinearTrajectory

theorem opposite_eq (rate nominal : ℝ) : Nan.opposite reals rate nominal = -1 * (Math.psign rate : ℝ) * nominal := by
  unfold Nan.opposite Nan.psign Math.psign
  simp only [le_r, mul_r, lit_r]
  by_cases h : 0 ≤ rate
  · simp [h]
  · simp [h]

theorem isApprox_eq (x y : ℝ) : Nan.isApprox reals x y = true ↔ Math.isApprox x y ((Math.dummyDouble : ℚ) : ℝ) := by
  unfold Nan.isApprox Math.isApprox Math.dummyDouble
  simp only [le_r, lt_r, mul_r, lit_r, abs_r, sub_r]
  have : (if |y| < |x| then |y| else |x|) = min |x| |y| := by
    split
    next h => rw [min_eq_right h.le]
    next h => rw [min_eq_left (not_lt.1 h)]
  rw [this]
  norm_num

theorem intersection_eq (f g : ℕ → ℝ) : Nan.intersectionX reals f g = into Prod.fst (Poly.intersection f g) := by
  unfold Nan.intersectionX Poly.intersection
  by_cases h : Math.isApprox (f 1) (g 1) ((Math.dummyDouble : ℚ) : ℝ)
  · rw [if_pos ((isApprox_eq _ _).2 h)]
    simp [h, into]
  · rw [if_neg fun e => h ((isApprox_eq _ _).1 e)]
    simp [h, into, div_r, sub_r]

theorem initialTangent_eq (w : Manip.WayPoint) (j : ℕ) : Nan.initialTangent reals (way w) j = initialTangent w j := by
  unfold Nan.initialTangent initialTangent
  rw [pointSlope_eq, get_eq, get_eq, lit0]
  rfl

theorem finalTangent_eq (w : Manip.WayPoint) (pull : ℝ) (j : ℕ) : Nan.finalTangent reals (way w) pull j = finalTangent w pull j := by
  unfold Nan.finalTangent finalTangent
  rw [pointSlope_eq, get_eq, get_eq]
  rfl

theorem preIntersect_eq (w : Manip.WayPoint) (pull : ℝ) : ∀ (js : List ℕ) (t : ℝ),
    Nan.preIntersect reals (way w) pull js t = preIntersect w pull js t := by
  intro js
  induction js with
  | nil => intro t; rfl
  | cons j js ih =>
    intro t
    unfold Nan.preIntersect preIntersect
    simp only [intersection_eq, into_bind, initialTangent_eq, pointSlope_eq, opposite_eq, get_eq, lt_r, ih]
    rfl

theorem postIntersect_eq (w : Manip.WayPoint) (nominal : List ℝ) (pull : ℝ) : ∀ (js : List ℕ) (t : ℝ),
    Nan.postIntersect reals (way w) nominal pull js t = postIntersect w nominal pull js t := by
  intro js
  induction js with
  | nil => intro t; rfl
  | cons j js ih =>
    intro t
    unfold Nan.postIntersect postIntersect
    simp only [intersection_eq, into_bind, finalTangent_eq, pointSlope_eq, opposite_eq, get_eq, lt_r, ih, lit0]
    rfl

theorem attempts_eq (amax : ℝ) (q : ℕ → ℝ × ℝ × (ℕ → ℝ)) (q' : ℕ → Outcome (ℝ × ℝ × (ℕ → ℝ))) (h : ∀ i, q' i = .ok (q i)) :
    ∀ (left i : ℕ) (b : Bool), attempts amax q' left i b = .ok (Nan.attempts reals amax q left i b) := by
  intro left
  induction left with
  | zero => intro i b; rfl
  | succ left ih =>
    intro i b
    unfold attempts Nan.attempts
    rw [h]
    simp only [Outcome.bind]
    by_cases hw : SmoothLinear.Within amax (q i).1 (q i).2.1 (q i).2.2
    · rw [if_pos hw, if_pos ((within_eq _ _ _ _).2 hw)]
    · rw [if_neg hw, if_neg fun g => hw ((within_eq _ _ _ _).1 g)]
      exact ih _ _

theorem jointsBroken_eq (amax : List ℝ) (q : ℕ → ℕ → ℝ × ℝ × (ℕ → ℝ)) (q' : ℕ → ℕ → Outcome (ℝ × ℝ × (ℕ → ℝ)))
    (h : ∀ j i, q' j i = .ok (q j i)) : ∀ (js : List ℕ) (b : Bool),
    jointsBroken amax q' js b = .ok (Nan.jointsBroken reals amax q js b) := by
  intro js
  induction js with
  | nil => intro b; rfl
  | cons j js ih =>
    intro b
    unfold jointsBroken Nan.jointsBroken
    rw [attempts_eq _ _ _ (h j), get_eq]
    exact ih _

theorem preQuintic_eq (w0 w1 : Manip.WayPoint) (pull t : ℝ) (j i : ℕ) :
    preQuintic w0 w1 pull t j i = .ok (Nan.preQuintic reals (way w0) (way w1) pull t j i) := by
  unfold preQuintic Nan.preQuintic
  simp only [quintic_eq, Outcome.bind, initialTangent_eq, linear_eq, eval_eq, get_eq, lit0, add_r, sub_r, mul_r, div_r, lit_r, wayDuration]
  rw [slope_eq (initialTangent w0 j) (t - (i : ℝ) * t / 5)]
  rw [slope_eq _ (t + (i : ℝ) * (pull + w0.duration - t) / 10)]
  push_cast
  rfl

theorem postQuintic_eq (w wn : Manip.WayPoint) (pull t : ℝ) (j i : ℕ) :
    postQuintic w wn pull t j i = .ok (Nan.postQuintic reals (way w) (way wn) pull t j i) := by
  unfold postQuintic Nan.postQuintic
  simp only [quintic_eq, Outcome.bind, finalTangent_eq, linear_eq, eval_eq, get_eq, lit0, add_r, sub_r, mul_r, div_r, lit_r, neg_r, wayDuration]
  rw [slope_eq (finalTangent wn pull j) (t + (i : ℝ) * (pull - t) / 5)]
  rw [slope_eq _ (t - (i : ℝ) * (w.duration + t) / 10)]
  push_cast
  rfl

theorem preStage_eq (d : ℕ) (amax : List ℝ) (w0 w1 : Manip.WayPoint) :
    Nan.preStage reals d amax (way w0) (way w1) = preStage d amax w0 w1 := by
  funext pull
  unfold Nan.preStage preStage
  rw [preIntersect_eq, lit_r, div_r]
  simp only [jointsBroken_eq _ _ _ (preQuintic_eq w0 w1 pull _), Outcome.bind]
  push_cast
  rfl

theorem postStage_eq (d : ℕ) (amax : List ℝ) (w wn : Manip.WayPoint) :
    Nan.postStage reals d amax (way w) (way wn) = postStage d amax w wn := by
  funext pull
  unfold Nan.postStage postStage
  rw [postIntersect_eq, lit0]
  simp only [jointsBroken_eq _ _ _ (postQuintic_eq w wn pull _), Outcome.bind]
  rfl

theorem pullLoop_some (stage : ℝ → Outcome (Bool × ℝ)) (limit : ℝ) : ∀ (m : ℕ) (p : ℝ) (r : Outcome (Option (ℝ × ℝ))),
    Nan.pullLoop reals stage limit m p = some r → ∀ k, pullLoop stage limit (m + k) p = r ∧ Nan.pullLoop reals stage limit (m + k) p = some r := by
  intro m
  induction m with
  | zero => intro p r h; cases h
  | succ m ih =>
    intro p r h k
    rw [show m + 1 + k = m + k + 1 by omega]
    unfold Nan.pullLoop at h
    unfold pullLoop Nan.pullLoop
    simp only [le_r, mul_r, lit_r] at h ⊢
    push_cast at h ⊢
    by_cases hp : p ≤ limit
    · rw [if_pos hp] at h ⊢
      rw [if_pos hp]
      rcases hs : stage p with ⟨_ | _, t⟩ | e | _
      · simpa [hs, Outcome.bind] using h
      · simp only [hs] at h
        simpa [Outcome.bind] using ih _ _ h k
      · simpa [hs, Outcome.bind] using h
      · simpa [hs, Outcome.bind] using h
    · rw [if_neg hp] at h ⊢
      rw [if_neg hp]
      simpa using h

theorem pullLoop_ends (stage : ℝ → Outcome (Bool × ℝ)) (limit : ℝ) : ∀ (m : ℕ) (p : ℝ), limit < 2 ^ m * p →
    ∃ r, Nan.pullLoop reals stage limit (m + 1) p = some r := by
  intro m
  induction m with
  | zero =>
    intro p h
    unfold Nan.pullLoop
    rw [if_neg (by rw [le_r]; simp at h; linarith)]
    exact ⟨_, rfl⟩
  | succ m ih =>
    intro p h
    obtain ⟨r, hr⟩ := ih (p * 2) (by rw [pow_succ] at h; linarith)
    unfold Nan.pullLoop
    split
    · rcases stage p with ⟨_ | _, t⟩ | e | _
      · exact ⟨_, rfl⟩
      · exact ⟨r, by simpa [mul_r, lit_r] using hr⟩
      · exact ⟨_, rfl⟩
      · exact ⟨_, rfl⟩
    · exact ⟨_, rfl⟩

theorem pull_of (stage : ℝ → Outcome (Bool × ℝ)) (limit : ℝ) (m : ℕ) (r : Outcome (Option (ℝ × ℝ)))
    (h : Nan.pullLoop reals stage limit m (reals.lit (1 / 1000)) = some r) : pull stage limit = r := by
  rw [show reals.lit (1 / 1000) = 1 / 1000 by simp [reals]] at h
  rw [← pullLoop_passes stage limit m, Nat.add_comm]
  exact (pullLoop_some _ _ _ _ _ h _).1

theorem pull_ends (stage : ℝ → Outcome (Bool × ℝ)) (limit : ℝ) :
    ∃ P, ∀ m, P ≤ m → Nan.pullLoop reals stage limit m (reals.lit (1 / 1000)) = some (pull stage limit) := by
  obtain ⟨n, hn⟩ := pow_unbounded_of_one_lt (1000 * limit) (by norm_num : (1 : ℝ) < 2)
  rw [show reals.lit (1 / 1000) = 1 / 1000 by simp [reals]]
  obtain ⟨r, hr⟩ := pullLoop_ends stage limit n (1 / 1000) (by linarith)
  refine ⟨n + 1, fun m hm => ?_⟩
  have h := (pullLoop_some _ _ _ _ _ hr (m - (n + 1))).2
  rw [show n + 1 + (m - (n + 1)) = m by omega] at h
  rw [h, pull_of stage limit m r (by rw [show reals.lit (1 / 1000) = 1 / 1000 by simp [reals]]; exact h)]

theorem timesFrom_eq (post pd : ℝ) : ∀ (ds : List ℝ) (t : ℝ), Nan.timesFrom reals post pd t ds = timesFrom post pd t ds := by
  intro ds
  induction ds with
  | nil => intro t; rfl
  | cons d ds ih =>
    intro t
    cases ds with
    | nil => rfl
    | cons d' ds => unfold Nan.timesFrom timesFrom; rw [ih]; rfl

theorem times_eq (pre prd post pod : ℝ) (ds : List ℝ) : Nan.times reals pre prd post pod ds = times pre prd post pod ds := by
  rcases ds with _ | ⟨d, _ | ⟨d', ds⟩⟩
  · rfl
  · simp only [Nan.times, times, timesFrom_eq, lit0]
  · simp only [Nan.times, times, timesFrom_eq, lit0, add_r]

theorem timesFrom_length (post pd : ℝ) : ∀ (ds : List ℝ) (t : ℝ), ds ≠ [] → (timesFrom post pd t ds).length = ds.length + 1 := by
  intro ds
  induction ds with
  | nil => intro t h; exact absurd rfl h
  | cons d ds ih =>
    intro t _
    cases ds with
    | nil => rfl
    | cons d' ds => unfold timesFrom; simp [ih _ (List.cons_ne_nil d' ds)]

theorem times_length' (pre prd post pod : ℝ) (ds : List ℝ) (h : ds ≠ []) : (times pre prd post pod ds).length = ds.length + 3 := by
  rcases ds with _ | ⟨d, _ | ⟨d', ds⟩⟩
  · exact absurd rfl h
  · rfl
  · unfold times; simp [timesFrom_length]

theorem values_eq (w0 wn : Manip.WayPoint) (middle : List Manip.WayPoint) (pre post postPull : ℝ) (j : ℕ) :
    Nan.values reals (way w0) (way wn) (middle.map way) pre post postPull j = values w0 wn middle pre post postPull j := by
  unfold Nan.values values
  simp only [eval_eq, initialTangent_eq, finalTangent_eq, get_eq, List.map_map]
  rfl

/-- What the generation of the splines does, as the other model writes it. -/
def generated : Generated → Nan.Generated ℝ
  | .splines l => .splines (l.map smoothOf)
  | .data k => .data k
  | .throw e => .throw e
  | .ub => .ub

theorem splineLoop_eq (xs : List ℝ) (ys : ℕ → List ℝ) (amax : List ℝ) (h : ∀ j, xs.length = (ys j).length) :
    ∀ (js : List ℕ) (done : List SmoothLinear.Spline),
      Nan.splineLoop reals xs ys amax js (done.map smoothOf) = generated (splineLoop xs ys amax js done) := by
  intro js
  induction js with
  | nil => intro done; rfl
  | cons j js ih =>
    intro done
    unfold Nan.splineLoop splineLoop
    rw [smooth_eq, get_eq, if_neg (not_not.2 (h j))]
    rcases SmoothLinear.construct xs (ys j) (at' amax j) with s | e | _
    · simp only
      rw [← ih]
      simp
    · rfl
    · rfl

theorem generate_eq (d : ℕ) (amax : List ℝ) (w0 wn : Manip.WayPoint) (middle : List Manip.WayPoint) :
    (∀ P, Nan.generate reals d amax P (way w0) (way wn) (middle.map way) = .running ∨
      Nan.generate reals d amax P (way w0) (way wn) (middle.map way) = generated (generate d amax w0 wn middle)) ∧
    ∃ N, ∀ P, N ≤ P → Nan.generate reals d amax P (way w0) (way wn) (middle.map way) = generated (generate d amax w0 wn middle) := by
  have h1 : (middle.map way ++ [way wn]).headD (way wn) = way ((middle ++ [wn]).headD wn) := by cases middle <;> rfl
  have h2 : (way w0 :: middle.map way).getLastD (way w0) = way ((w0 :: middle).getLastD w0) := by
    rw [← List.map_cons]
    simp only [List.getLastD_eq_getLast?, List.getLast?_map]
    cases (w0 :: middle).getLast? <;> rfl
  set w1 := (middle ++ [wn]).headD wn
  set before := (w0 :: middle).getLastD w0
  have h3 : ((way w0 :: middle.map way).map Nan.WayPoint.duration) = (w0 :: middle).map Manip.WayPoint.duration := by
    simp [List.map_map, Function.comp, wayDuration]
  have rest : ∀ prePull pre postPull post : ℝ,
      Nan.splineLoop reals
        (Nan.times reals pre (reals.sub (reals.add (reals.mul prePull (reals.lit 2)) w0.duration) pre) post
          (reals.sub (reals.mul postPull (reals.lit 2)) post) ((w0 :: middle).map Manip.WayPoint.duration))
        (Nan.values reals (way w0) (way wn) (middle.map way) pre post postPull) amax (List.range d) [] =
      generated (splineLoop
        (times pre (prePull * 2 + w0.duration - pre) post (postPull * 2 - post) ((w0 :: middle).map Manip.WayPoint.duration))
        (values w0 wn middle pre post postPull) amax (List.range d) []) := by
    intro prePull pre postPull post
    rw [times_eq, show Nan.values reals (way w0) (way wn) (middle.map way) pre post postPull = values w0 wn middle pre post postPull from
      funext fun j => values_eq _ _ _ _ _ _ j]
    simp only [sub_r, add_r, mul_r, lit_r]
    push_cast
    apply splineLoop_eq (done := [])
    intro j
    rw [times_length' _ _ _ _ _ (by simp)]
    simp [values]
  have body : ∀ P,
      (Nan.pullLoop reals (preStage d amax w0 w1) w0.duration P (reals.lit (1 / 1000)) = none ∨
        Nan.pullLoop reals (preStage d amax w0 w1) w0.duration P (reals.lit (1 / 1000)) = some (pull (preStage d amax w0 w1) w0.duration)) →
      (Nan.pullLoop reals (postStage d amax before wn) before.duration P (reals.lit (1 / 1000)) = none ∨
        Nan.pullLoop reals (postStage d amax before wn) before.duration P (reals.lit (1 / 1000)) =
          some (pull (postStage d amax before wn) before.duration)) →
      (Nan.generate reals d amax P (way w0) (way wn) (middle.map way) = .running ∧
        (Nan.pullLoop reals (preStage d amax w0 w1) w0.duration P (reals.lit (1 / 1000)) = none ∨
         Nan.pullLoop reals (postStage d amax before wn) before.duration P (reals.lit (1 / 1000)) = none)) ∨
      Nan.generate reals d amax P (way w0) (way wn) (middle.map way) = generated (generate d amax w0 wn middle) := by
    intro P a1 a2
    unfold Nan.generate generate
    simp only [h1, h2, h3, preStage_eq, postStage_eq, wayDuration]
    rcases a1 with a1 | a1
    · rw [a1]
      exact .inl ⟨rfl, .inl rfl⟩
    rw [a1]
    rcases pull (preStage d amax w0 w1) w0.duration with (_ | ⟨prePull, pre⟩) | e | _
    · exact .inr rfl
    · rcases a2 with a2 | a2
      · rw [a2]
        exact .inl ⟨rfl, .inr rfl⟩
      · rw [a2]
        rcases pull (postStage d amax before wn) before.duration with (_ | ⟨postPull, post⟩) | e | _
        · exact .inr rfl
        · exact .inr (rest _ _ _ _)
        · exact .inr rfl
        · exact .inr rfl
    · exact .inr rfl
    · exact .inr rfl
  have either : ∀ stage limit P, Nan.pullLoop reals stage limit P (reals.lit (1 / 1000)) = none ∨
      Nan.pullLoop reals stage limit P (reals.lit (1 / 1000)) = some (pull stage limit) := by
    intro stage limit P
    cases h : Nan.pullLoop reals stage limit P (reals.lit (1 / 1000)) with
    | none => exact .inl rfl
    | some r => exact .inr (by rw [pull_of _ _ _ _ h])
  constructor
  · intro P
    rcases body P (either _ _ _) (either _ _ _) with h | h
    · exact .inl h.1
    · exact .inr h
  · obtain ⟨P1, hP1⟩ := pull_ends (preStage d amax w0 w1) w0.duration
    obtain ⟨P2, hP2⟩ := pull_ends (postStage d amax before wn) before.duration
    refine ⟨max P1 P2, fun P hP => ?_⟩
    have e1 := hP1 P (le_trans (le_max_left _ _) hP)
    have e2 := hP2 P (le_trans (le_max_right _ _) hP)
    rcases body P (.inr e1) (.inr e2) with ⟨_, h | h⟩ | h
    · rw [e1] at h; cases h
    · rw [e2] at h; cases h
    · exact h

theorem generateFor_eq (d : ℕ) (amax : List ℝ) (ws : List Manip.WayPoint) :
    (∀ P, Nan.generateFor reals d amax P (Nan.configureEnds reals (ws.map way)) = .running ∨
      Nan.generateFor reals d amax P (Nan.configureEnds reals (ws.map way)) = generated (generateFor d amax ws)) ∧
    ∃ N, ∀ P, N ≤ P → Nan.generateFor reals d amax P (Nan.configureEnds reals (ws.map way)) = generated (generateFor d amax ws) := by
  rw [configureEnds_eq]
  unfold generateFor
  generalize configureEnds ws = vs
  rcases vs with _ | ⟨w0, _ | ⟨w1, rest⟩⟩
  · exact ⟨fun P => .inr rfl, 0, fun P _ => rfl⟩
  · exact ⟨fun P => .inr rfl, 0, fun P _ => rfl⟩
  · have h1 : ((w1 :: rest).map way).getLastD (way w1) = way ((w1 :: rest).getLastD w1) := by
      simp only [List.getLastD_eq_getLast?, List.getLast?_map]
      cases (w1 :: rest).getLast? <;> rfl
    have h2 : ((w1 :: rest).map way).dropLast = (w1 :: rest).dropLast.map way := by rw [List.map_dropLast]
    have h := generate_eq d amax w0 ((w1 :: rest).getLastD w1) (w1 :: rest).dropLast
    rw [← h1, ← h2] at h
    exact h

theorem finish_eq (mode : Mode) (ws : List Manip.WayPoint) (l : List SmoothLinear.Spline) :
    Nan.finish reals mode (ws.map way) (l.map smoothOf) = into linearTrajectory (finish mode ws l) := by
  cases l with
  | nil => cases mode <;> rfl
  | cons s l => simp [Nan.finish, finish, into, linearTrajectory, smoothOf, sub_r, lit0]

theorem stretch_eq (n k : ℕ) (ws : List Manip.WayPoint) : Nan.stretch reals n k (ws.map way) = (stretch n k ws).map way := by
  unfold Nan.stretch stretch
  simp only [stretched_eq (11 / 10) (11 / 10) (by norm_num), stretched_eq (21 / 20) (21 / 20) (by norm_num)]
  split
  · rfl
  · split
    · rfl
    · split <;> rfl

theorem constrain_some (mode : Mode) (d : ℕ) (amax : List ℝ) (P : ℕ) : ∀ (passes : ℕ) (ws : List Manip.WayPoint) (r : Outcome (Nan.LinearTrajectory ℝ)),
    Nan.constrainLoop reals mode d amax P passes (ws.map way) = some r →
    (constrainLoop mode d amax passes ws).map (into linearTrajectory) = some r := by
  intro passes
  induction passes with
  | zero => intro ws r h; cases h
  | succ passes ih =>
    intro ws r h
    unfold Nan.constrainLoop at h
    unfold constrainLoop
    rcases (generateFor_eq d amax ws).1 P with e | e
    · rw [e] at h; cases h
    · rw [e] at h
      revert h
      rcases generateFor d amax ws with l | k | e | _ <;> intro h
      · simp only [generated, configureEnds_eq, finish_eq] at h
        exact h
      · simp only [generated, configureEnds_eq, stretch_eq, List.length_map] at h
        exact ih _ _ h
      · exact h
      · exact h

theorem constrain_ends (mode : Mode) (d : ℕ) (amax : List ℝ) : ∀ (passes : ℕ) (ws : List Manip.WayPoint) (r : Outcome Trajectory),
    constrainLoop mode d amax passes ws = some r →
    ∃ N, ∀ P, N ≤ P → ∀ k, Nan.constrainLoop reals mode d amax P (passes + k) (ws.map way) = some (into linearTrajectory r) := by
  intro passes
  induction passes with
  | zero => intro ws r h; cases h
  | succ passes ih =>
    intro ws r h
    obtain ⟨N, hN⟩ := (generateFor_eq d amax ws).2
    unfold constrainLoop at h
    cases hg : generateFor d amax ws with
    | splines l =>
      rw [hg] at h hN
      cases h
      refine ⟨N, fun P hP k => ?_⟩
      rw [show passes + 1 + k = passes + k + 1 by omega]
      unfold Nan.constrainLoop
      rw [hN P hP]
      simp only [generated, configureEnds_eq, finish_eq]
    | data c =>
      rw [hg] at h hN
      obtain ⟨N', hN'⟩ := ih _ _ h
      refine ⟨max N N', fun P hP k => ?_⟩
      rw [show passes + 1 + k = passes + k + 1 by omega]
      unfold Nan.constrainLoop
      rw [hN P (le_trans (le_max_left _ _) hP)]
      simp only [generated, configureEnds_eq, stretch_eq, List.length_map]
      exact hN' P (le_trans (le_max_right _ _) hP) k
    | throw e =>
      rw [hg] at h hN
      cases h
      refine ⟨N, fun P hP k => ?_⟩
      rw [show passes + 1 + k = passes + k + 1 by omega]
      unfold Nan.constrainLoop
      rw [hN P hP]
      rfl
    | ub =>
      rw [hg] at h hN
      cases h
      refine ⟨N, fun P hP k => ?_⟩
      rw [show passes + 1 + k = passes + k + 1 by omega]
      unfold Nan.constrainLoop
      rw [hN P hP]
      rfl

theorem linear_some (mode : Mode) (d : ℕ) (amax : List ℝ) (passes : ℕ) (ws : List Manip.WayPoint) (hf : ∀ w ∈ ws, Spec.Fits d w)
    (r : Outcome (Nan.LinearTrajectory ℝ)) (h : Nan.linearSplineInterpolation reals mode d amax passes (ws.map way) = some r) :
    (linearSplineInterpolation mode d amax passes ws).map (into linearTrajectory) = some r := by
  unfold Nan.linearSplineInterpolation at h
  unfold linearSplineInterpolation
  rw [validate_eq] at h
  obtain ⟨ws', b, h1, h2⟩ := initialise_eq mode d ws hf
  have hv : ws = [] → Manip.validate ws 2 = .ok false := by rintro rfl; simp [Manip.validate]
  rcases hval : Manip.validate ws 2 with (_ | _) | e | _
  · rw [hval] at h; exact h
  · rw [hval, h2] at h
    have h0 : ws ≠ [] := fun h0 => by simp [hv h0] at hval
    simp only [Manip.initialiseDurations, if_neg h0, h1]
    cases b
    · exact h
    · exact constrain_some _ _ _ _ _ _ _ h
  · rw [hval] at h; exact h
  · rw [hval] at h; exact h

theorem linear_ends (mode : Mode) (d : ℕ) (amax : List ℝ) (passes : ℕ) (ws : List Manip.WayPoint) (hf : ∀ w ∈ ws, Spec.Fits d w)
    (r : Outcome Trajectory) (h : linearSplineInterpolation mode d amax passes ws = some r) :
    ∃ N, ∀ P, N ≤ P → Nan.linearSplineInterpolation reals mode d amax P (ws.map way) = some (into linearTrajectory r) := by
  unfold linearSplineInterpolation at h
  unfold Nan.linearSplineInterpolation
  rw [validate_eq]
  obtain ⟨ws', b, h1, h2⟩ := initialise_eq mode d ws hf
  have hv : ws = [] → Manip.validate ws 2 = .ok false := by rintro rfl; simp [Manip.validate]
  rcases hval : Manip.validate ws 2 with (_ | _) | e | _
  · rw [hval] at h; cases h; exact ⟨0, fun _ _ => rfl⟩
  · rw [hval] at h
    have h0 : ws ≠ [] := fun h0 => by simp [hv h0] at hval
    simp only [Manip.initialiseDurations, if_neg h0, h1] at h
    rw [h2]
    cases b
    · cases h; exact ⟨0, fun _ _ => rfl⟩
    · obtain ⟨N, hN⟩ := constrain_ends _ _ _ _ _ _ h
      refine ⟨max N passes, fun P hP => ?_⟩
      have := hN P (le_trans (le_max_left _ _) hP) (P - passes)
      rw [show passes + (P - passes) = P by have := le_trans (le_max_right N passes) hP; omega] at this
      exact this
  · rw [hval] at h; cases h; exact ⟨0, fun _ _ => rfl⟩
  · rw [hval] at h; cases h; exact ⟨0, fun _ _ => rfl⟩

end Linear
end Ecl.NanReal
