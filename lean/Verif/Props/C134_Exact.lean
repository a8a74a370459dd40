import Verif.Lemmas.NanRealTrajectory
import Verif.Props.C132_TensionReturns
import Verif.Props.C82_LinearTrajectory

/-! # C134: the program over an arbitrary arithmetic, run with real numbers, is the exact program -/
set_option autoImplicit false

namespace Ecl.Props
open Ecl Ecl.NanReal

namespace C134

theorem failed (x y : ℕ → ℝ) (amax : ℝ) (n : ℕ) : ∀ left i, SmoothLinear.cornerLoop x y amax n left i = .throw .constructorError →
    i ≤ LinearTrajectory.failedCorner x y amax n left i ∧ LinearTrajectory.failedCorner x y amax n left i < i + left ∧
    SmoothLinear.corner x y amax n (LinearTrajectory.failedCorner x y amax n left i) = .throw .constructorError ∧
    ∀ k, i ≤ k → k < LinearTrajectory.failedCorner x y amax n left i → ∃ c, SmoothLinear.corner x y amax n k = .ok c := by
  intro left
  induction left with
  | zero => intro i h; cases h
  | succ left ih =>
    intro i h
    unfold SmoothLinear.cornerLoop at h
    unfold LinearTrajectory.failedCorner
    rcases corner_eq x y amax n i with ⟨c, h1, _⟩ | ⟨h1, _⟩
    · rw [h1] at h ⊢
      simp only [Outcome.bind] at h ⊢
      have h' : SmoothLinear.cornerLoop x y amax n left (i + 1) = .throw .constructorError := by
        rcases cornerLoop_eq x y amax n left (i + 1) with ⟨cs, h2, _⟩ | ⟨h2, _⟩
        · rw [h2] at h; cases h
        · exact h2
      obtain ⟨a, b, c', d⟩ := ih _ h'
      refine ⟨by omega, by omega, c', ?_⟩
      intro k hk1 hk2
      by_cases hk : k = i
      · subst hk; exact ⟨c, h1⟩
      · exact d k (by omega) hk2
    · rw [h1]
      exact ⟨le_refl _, Nat.lt_add_of_pos_right (Nat.succ_pos _), h1, fun k h2 h3 => absurd h2 (not_le.2 h3)⟩

end C134

/-- The smooth linear spline that the exact program makes is the one made with real numbers.  Where the exact program
throws for points of equal number, the datum is the first of the corners that cannot be rounded. -/
theorem C134_smooth (xs ys : List ℝ) (amax : ℝ) :
    match SmoothLinear.construct xs ys amax with
    | .ok s => Nan.smooth reals xs ys amax = .ok (smoothOf s)
    | .throw e => ∃ k, Nan.smooth reals xs ys amax = .data e k ∧ (xs.length = ys.length →
        1 ≤ k ∧ k + 1 < xs.length ∧
        SmoothLinear.corner (CubicSpline.at' xs) (CubicSpline.at' ys) amax (xs.length - 1) k = .throw .constructorError ∧
        ∀ i, 1 ≤ i → i < k → ∃ c, SmoothLinear.corner (CubicSpline.at' xs) (CubicSpline.at' ys) amax (xs.length - 1) i = .ok c)
    | .ub => Nan.smooth reals xs ys amax = .ub := by
  rw [smooth_eq]
  cases hc : SmoothLinear.construct xs ys amax with
  | ok s => rfl
  | ub => rfl
  | throw e =>
    refine ⟨_, rfl, fun hl => ?_⟩
    rw [if_neg (not_not.2 hl)]
    unfold SmoothLinear.construct at hc
    rw [if_neg (not_not.2 hl)] at hc
    by_cases h2 : xs.length < 2
    · rw [if_pos h2] at hc; cases hc
    · rw [if_neg h2] at hc
      have hc' : SmoothLinear.cornerLoop (CubicSpline.at' xs) (CubicSpline.at' ys) amax (xs.length - 1) (xs.length - 2) 1 =
          .throw .constructorError := by
        rcases cornerLoop_eq (CubicSpline.at' xs) (CubicSpline.at' ys) amax (xs.length - 1) (xs.length - 2) 1 with ⟨cs, h3, _⟩ | ⟨h3, _⟩
        · rw [show xs.length - 2 = xs.length - 1 - 1 by omega] at h3
          simp only [h3, Outcome.bind] at hc
          cases hc
        · exact h3
      obtain ⟨a, b, c, d⟩ := C134.failed _ _ _ _ _ _ hc'
      exact ⟨a, by omega, c, d⟩

example : (Nan.smooth reals [0, 1] [0] 1) = .data .outOfRange 0 := by simp [Nan.smooth]

/-- Tension splines are made alike: same knots, functions and tension, same exception, in both builds. -/
theorem C134_natural (mode : Mode) (xs ys : List ℝ) (tau : ℝ) :
    Nan.natural reals mode xs ys tau = into tension (TensionSpline.natural mode xs ys tau) := natural_eq mode xs ys tau

/-- And they are evaluated alike, also outside their domain. -/
theorem C134_evaluate (mode : Mode) (s : TensionSpline.Spline) (x : ℝ) :
    Nan.Tension.value reals mode (tension s) x = TensionSpline.value mode s x ∧
    Nan.Tension.slope reals mode (tension s) x = TensionSpline.slope mode s x ∧
    Nan.Tension.curvature reals mode (tension s) x = TensionSpline.curvature mode s x :=
  ⟨tvalue_eq mode s x, tslope_eq mode s x, tcurvature_eq mode s x⟩

example : Nan.natural reals .release [0, 1] [0, 1] 1 = .ub := by rw [C134_natural]; rfl
example : Nan.Tension.value reals .debug (tension ⟨[0, 1], [⟨0, 1, 2, 3, 0, 0⟩], 1⟩) 2 = .throw .outOfRange := by
  rw [(C134_evaluate _ _ _).1]
  simp [TensionSpline.value, CubicSpline.segment, Outcome.bind]

/-- Tension spline interpolation does the same pass by pass, in both builds, whatever the limits. -/
theorem C134_tension (mode : Mode) (d : ℕ) (amax : List ℝ) (tau : ℝ) (passes : ℕ) (ws : List Manip.WayPoint)
    (hf : ∀ w ∈ ws, Spec.Fits d w) :
    Nan.tensionSplineInterpolation reals mode d amax tau passes (ws.map way) =
      (TensionTrajectory.tensionSplineInterpolation mode d amax tau passes ws).map (into tensionTrajectory) :=
  tensionInterpolation_eq mode d amax tau passes ws hf

/-- Linear spline interpolation returns with real numbers exactly if the exact program does, and then with the same result. -/
theorem C134_linear (mode : Mode) (d : ℕ) (amax : List ℝ) (ws : List Manip.WayPoint) (hf : ∀ w ∈ ws, Spec.Fits d w)
    (r : Outcome (Nan.LinearTrajectory ℝ)) :
    (∃ passes, Nan.linearSplineInterpolation reals mode d amax passes (ws.map way) = some r) ↔
    ∃ passes r', LinearTrajectory.linearSplineInterpolation mode d amax passes ws = some r' ∧ r = into linearTrajectory r' := by
  constructor
  · rintro ⟨passes, h⟩
    have := linear_some mode d amax passes ws hf r h
    rw [Option.map_eq_some_iff] at this
    obtain ⟨r', h1, h2⟩ := this
    exact ⟨passes, r', h1, h2.symm⟩
  · rintro ⟨passes, r', h, rfl⟩
    obtain ⟨N, hN⟩ := linear_ends mode d amax passes ws hf r' h
    exact ⟨N, hN N (le_refl _)⟩

/-- With large limits it returns. -/
example : ∃ amax passes t, Nan.linearSplineInterpolation reals .debug 1 amax passes (TensionTrajectory.bent.map way) =
    some (.ok (linearTrajectory t)) := by
  obtain ⟨A, hA⟩ := C82_large_limits .debug 1 TensionTrajectory.bent TensionTrajectory.bent_fits one_pos (by simp [TensionTrajectory.bent])
    TensionTrajectory.bent_usable.2.1 (by
      intro i w hw hi
      simp only [TensionTrajectory.bent, List.length_cons, List.length_nil] at hw hi
      have : i = 0 ∨ i = 1 ∨ i = 2 ∨ i = 3 := by omega
      rcases this with rfl | rfl | rfl | rfl <;> simp at hw <;> subst hw <;> norm_num)
  obtain ⟨t, ht⟩ := hA [|A| + 1] (by
    intro j hj
    obtain rfl : j = 0 := by omega
    refine ⟨|A| + 1, rfl, ?_⟩
    rw [abs_of_pos (by positivity)]
    linarith [le_abs_self A])
  obtain ⟨passes, h⟩ := (C134_linear .debug 1 [|A| + 1] TensionTrajectory.bent TensionTrajectory.bent_fits (.ok (linearTrajectory t))).2
    ⟨1, _, ht, rfl⟩
  exact ⟨_, passes, t, h⟩

/-- So with real numbers, for usable waypoints, a positive tension and a limit for every joint, tension spline
interpolation returns if and only if all these limits are positive. -/
theorem C134_returns (mode : Mode) (d : ℕ) (amax : List ℝ) (tau : ℝ) (ws : List Manip.WayPoint) (hd : 0 < d) (ht : 0 < tau)
    (hf : ∀ w ∈ ws, Spec.Fits d w) (hu : Spec.Usable 5 ws ∨ mode = .release ∧ Spec.Usable 3 ws) (hl : d ≤ amax.length) :
    (∃ passes r, Nan.tensionSplineInterpolation reals mode d amax tau passes (ws.map way) = some r) ↔
      ∀ j < d, ∀ limit, amax[j]? = some limit → 0 < limit := by
  rw [← C132_decision mode d amax tau ws hd ht hf hu hl]
  constructor
  · rintro ⟨passes, r, h⟩
    rw [C134_tension mode d amax tau passes ws hf, Option.map_eq_some_iff] at h
    obtain ⟨r', h1, _⟩ := h
    exact ⟨passes, r', h1⟩
  · rintro ⟨passes, r, h⟩
    exact ⟨passes, into tensionTrajectory r, by rw [C134_tension mode d amax tau passes ws hf, h]; rfl⟩

example : (∃ passes r, Nan.tensionSplineInterpolation reals .debug 1 [1 / 1000] 2 passes (TensionTrajectory.bent.map way) = some r) ∧
    ¬ (∃ passes r, Nan.tensionSplineInterpolation reals .debug 1 [0] 2 passes (TensionTrajectory.bent.map way) = some r) := by
  constructor
  · rw [C134_returns .debug 1 _ 2 _ one_pos two_pos TensionTrajectory.bent_fits (Or.inl TensionTrajectory.bent_usable) (by simp)]
    intro j hj limit h
    obtain rfl : j = 0 := by omega
    simp at h
    rw [← h]; norm_num
  · rw [C134_returns .debug 1 _ 2 _ one_pos two_pos TensionTrajectory.bent_fits (Or.inl TensionTrajectory.bent_usable) (by simp)]
    intro h
    exact absurd (h 0 one_pos 0 rfl) (lt_irrefl _)

end Ecl.Props
