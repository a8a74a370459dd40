import Verif.Lemmas.TensionTrajectoryLarge

/-! # Where a tension spline trajectory jumps -/
set_option autoImplicit false
set_option linter.unusedSimpArgs false

namespace Ecl.TensionTrajectory
open Ecl Ecl.Poly Ecl.Manip Ecl.TensionSpline Ecl.Spec
open Ecl.SmoothLinear (Within)
open Ecl.LinearTrajectory (Kept Ready kept_refl kept_trans kept_get stretchOne configureEnds smooth_congr)
open Ecl.CubicSpline (at')
open Filter (Tendsto)
open Topology

/-- Two continuous functions that agree to the right of a point agree at it. -/
theorem agree_at {f g : ℝ → ℝ} {a b c d x e : ℝ} (hf : ContinuousOn f (Set.Icc a b)) (hg : ContinuousOn g (Set.Icc c d))
    (h1 : a ≤ x) (h2 : c ≤ x) (he : x < e) (hb : e ≤ b) (hd : e ≤ d) (h : ∀ y, x < y → y ≤ e → f y = g y) : f x = g x := by
  have hsub : ∀ {l r : ℝ}, l ≤ x → e ≤ r → Set.Ioo x e ⊆ Set.Icc l r := fun hl hr y hy =>
    ⟨hl.trans hy.1.le, hy.2.le.trans hr⟩
  have n : (𝓝[Set.Ioo x e] x).NeBot := left_nhdsWithin_Ioo_neBot he
  have t1 : Tendsto f (𝓝[Set.Ioo x e] x) (𝓝 (f x)) := (hf x ⟨h1, he.le.trans hb⟩).mono_left (nhdsWithin_mono _ (hsub h1 hb))
  have t2 : Tendsto g (𝓝[Set.Ioo x e] x) (𝓝 (g x)) := (hg x ⟨h2, he.le.trans hd⟩).mono_left (nhdsWithin_mono _ (hsub h2 hd))
  refine tendsto_nhds_unique (t1.congr' ?_) t2
  filter_upwards [self_mem_nhdsWithin] with y hy
  exact h y hy.1 hy.2.le

section
variable {mode : Mode} {d : ℕ} {amax : List ℝ} {tau : ℝ} {ws ws1 : List WayPoint} {start t : ℝ} {tr : Trajectory}
  {j : ℕ} {p q : Coeffs ℝ} {s : TensionSpline.Spline}

/-- If the acceleration were continuous, the spline would have none where the leading quintic ends. -/
theorem Laid.acceleration_meets (L : Laid mode d amax tau ws ws1 start t tr) (ht : 0 < tau)
    (P : Parts mode d amax tau ws1 start t tr j p q s) (h : Unbroken (tr.acceleration mode j) 0 tr.duration) :
    curvature mode s tr.first = .ok 0 := by
  obtain ⟨f0, f1, f2⟩ := L.first_lt
  obtain ⟨i1, i2⟩ := L.inside
  obtain ⟨F, hF, cF⟩ := h
  obtain ⟨G0, G1, G, hG, -, -, cG⟩ := L.spline_smooth ht P
  have e := agree_at cF cG f0.le i1.le f1 f2.le i2.le fun y h1 h2 => by
    have e1 := hF y ⟨(f0.trans h1).le, h2.trans f2.le⟩
    have e2 := (hG y ⟨(i1.trans h1).le, h2.trans i2.le⟩).2.2
    have e3 : tr.acceleration mode j y = curvature mode s y := evaluate_second _ _ P.hp P.hs P.hq f0 f2 h1 h2
    rw [e1, e2] at e3
    exact Outcome.ok.inj e3
  have e1 := hF tr.first ⟨f0.le, (f1.trans f2).le⟩
  have e2 : tr.acceleration mode j tr.first = .ok (dderivativeAt 5 p tr.first) :=
    evaluate_first _ _ P.hp P.hs P.hq f1 f2 f0.le (le_refl _)
  rw [e2, P.firstCurvature] at e1
  rw [(hG tr.first ⟨i1.le, (f1.trans i2).le⟩).2.2, ← e, ← Outcome.ok.inj e1]

/-- If the trajectory itself were continuous, the leading quintic would end on the spline. -/
theorem Laid.value_meets (L : Laid mode d amax tau ws ws1 start t tr) (ht : 0 < tau)
    (P : Parts mode d amax tau ws1 start t tr j p q s) (h : Unbroken (tr.value mode j) 0 tr.duration) :
    value mode s tr.first = .ok (eval 5 p tr.first) := by
  obtain ⟨f0, f1, f2⟩ := L.first_lt
  obtain ⟨i1, i2⟩ := L.inside
  obtain ⟨F, hF, cF⟩ := h
  obtain ⟨G, G', G2, hG, dG, -, -⟩ := L.spline_smooth ht P
  have e := agree_at cF (fun x hx => (dG x hx).continuousWithinAt) f0.le i1.le f1 f2.le i2.le fun y h1 h2 => by
    have e1 := hF y ⟨(f0.trans h1).le, h2.trans f2.le⟩
    have e2 := (hG y ⟨(i1.trans h1).le, h2.trans i2.le⟩).1
    have e3 : tr.value mode j y = value mode s y := evaluate_second _ _ P.hp P.hs P.hq f0 f2 h1 h2
    rw [e1, e2] at e3
    exact Outcome.ok.inj e3
  have e1 := hF tr.first ⟨f0.le, (f1.trans f2).le⟩
  have e2 : tr.value mode j tr.first = .ok (eval 5 p tr.first) :=
    evaluate_first _ _ P.hp P.hs P.hq f1 f2 f0.le (le_refl _)
  rw [e2] at e1
  rw [(hG tr.first ⟨i1.le, (f1.trans i2).le⟩).1, ← e, ← Outcome.ok.inj e1]

end

/-- One joint at 0, 0, 1, 2, 3. -/
noncomputable def bent : List WayPoint :=
  [⟨[0], [0], [1], 1, true⟩, ⟨[0], [0], [1], 1, true⟩, ⟨[1], [0], [1], 1, true⟩, ⟨[2], [0], [1], 1, true⟩, ⟨[3], [0], [1], 0, true⟩]

theorem bent_init (mode : Mode) : initialiseDurations mode 1 bent = .ok bent true := by
  cases mode <;> simp [initialiseDurations, bent, segmentLoop, jointLoop, Arr.get, Arr.rawGet, assertThrow, raiseDuration,
    List.range_succ, bind, Outcome.bind] <;> norm_num

theorem bent_fits : ∀ w ∈ bent, Fits 1 w := by
  intro w hw
  simp only [bent, List.mem_cons, List.not_mem_nil, or_false] at hw
  rcases hw with rfl | rfl | rfl | rfl | rfl <;> exact ⟨rfl, rfl, rfl⟩

theorem bent_get : ∀ (i : ℕ) (w : WayPoint), bent[i]? = some w → i + 1 < bent.length → w.duration = 1 ∧ w.nominal = [1] := by
  intro i w hw hi
  simp only [bent, List.length_cons, List.length_nil] at hi
  have : i = 0 ∨ i = 1 ∨ i = 2 ∨ i = 3 := by omega
  rcases this with rfl | rfl | rfl | rfl <;> simp [bent] at hw <;> subst hw <;> exact ⟨rfl, rfl⟩

theorem bent_usable : Usable 5 bent := by
  refine ⟨by simp [bent], ?_, ?_⟩
  · intro i w hw hi r hr
    rw [(bent_get i w hw hi).2] at hr
    simp at hr; rw [hr]; norm_num
  · intro i w next hs
    left
    rw [(bent_get i w hs.1 (List.getElem?_eq_some_iff.1 hs.2).1).1]
    norm_num

theorem bent_ready : Ready 1 bent :=
  ⟨by simp [bent], bent_fits, fun i w hw hi => by
    obtain ⟨h1, h2⟩ := bent_get i w hw hi
    refine ⟨by rw [h1]; norm_num, fun r hr => ?_⟩
    rw [h2] at hr
    simp at hr; rw [hr]; norm_num⟩

theorem interpolate_build (mode : Mode) (amax : List ℝ) (tau : ℝ) (passes : ℕ) {ws : List WayPoint} (hu : Usable 5 ws) {d : ℕ} {ws' : List WayPoint}
    (hi : initialiseDurations mode d ws = .ok ws' true) :
    tensionSplineInterpolation mode d amax tau passes ws = build mode d amax tau passes ws' := by
  have hv : validate ws 5 = .ok true := (validate_iff (by norm_num)).2 ⟨hu.1, hu.2.1⟩
  unfold tensionSplineInterpolation
  rw [hv, hi]
  cases mode with
  | release => rfl
  | debug => simp [assertThrow, hu.1, Outcome.bind]

/-- The acceleration at the second of the knots is not zero. -/
theorem bent_curvature {mode : Mode} {tau start : ℝ} (ht : 0 < tau) {s : TensionSpline.Spline}
    (h : Splined mode tau start bent 0 s) {x : ℝ} (h0 : start < x) (h1 : x ≤ start + 1) : curvature mode s x ≠ .ok 0 := by
  obtain ⟨z, hz⟩ := h
  intro hc
  have hl : bent.length - 3 = 2 := by simp [bent]
  rw [hl] at hz
  have hds : durations bent = [1, 1, 1, 1] := by simp [durations, bent]
  have hk : ∀ i, i ≤ 4 → at' (knotTimes start (durations bent)) i = start + i := by
    intro i hi
    rw [hds]
    have : i = 0 ∨ i = 1 ∨ i = 2 ∨ i = 3 ∨ i = 4 := by omega
    rcases this with rfl | rfl | rfl | rfl | rfl <;> simp [knotTimes, at'] <;> ring
  have hh : ∀ i, i < 4 → hAt (at' (knotTimes start (durations bent))) i = 1 := by
    intro i hi
    rw [hAt, hk i (by omega), hk (i + 1) (by omega)]
    push_cast; ring
  have hy : jointValues bent 0 = [0, 0, 1, 2, 3] := by simp [jointValues, bent, at']
  have e := hz.curvature 0 (by norm_num) x (by
    rw [hk 0 (by norm_num), hk (2 + 1 + 1) (by norm_num)]
    push_cast
    constructor <;> linarith) (by rw [hk 1 (by norm_num)]; push_cast; linarith) (Or.inl rfl)
  rw [hc] at e
  have e := Outcome.ok.inj e
  have hz1 : z 1 = 0 := by
    simp only [pieceOf, interpolation, Func.curvature, hz.first] at e
    rw [hk 0 (by norm_num), hk 1 (by norm_num)] at e
    push_cast at e
    have s1 : 0 < Real.sinh (tau * (x - (start + 0))) := Real.sinh_pos_iff.2 (mul_pos ht (by linarith))
    have s2 : 0 < Real.sinh (tau * (start + 1 - (start + 0))) := Real.sinh_pos_iff.2 (mul_pos ht (by linarith))
    have htt : 0 < tau * tau := mul_pos ht ht
    have := (div_eq_zero_iff.1 e.symm).resolve_right (by positivity)
    have h3 : tau * tau * Real.sinh (tau * (x - (start + 0))) * z 1 = 0 := by linear_combination this
    exact (mul_eq_zero.1 h3).resolve_left (by positivity)
  have ap : 0 < aAt tau (fun i => (i : ℝ)) 0 := a_pos ht (by simp [hAt])
  have ab : aAt tau (fun i => (i : ℝ)) 0 < betaAt tau (fun i => (i : ℝ)) 0 := a_lt_beta ht (by simp [hAt])
  have ea : ∀ i, i < 4 → aAt tau (at' (knotTimes start (durations bent))) i = aAt tau (fun i => (i : ℝ)) 0 := by
    intro i hi; simp [aAt, hh i hi]; simp [hAt]
  have eb : ∀ i, i < 4 → betaAt tau (at' (knotTimes start (durations bent))) i = betaAt tau (fun i => (i : ℝ)) 0 := by
    intro i hi; simp [betaAt, hh i hi]; simp [hAt]
  have r0 := hz.row 0 (by norm_num)
  have r1 := hz.row 1 (by norm_num)
  have r2 := hz.row 2 (by norm_num)
  rw [ea 0 (by norm_num), ea 1 (by norm_num), eb 0 (by norm_num), eb 1 (by norm_num), gammaAt, gammaAt, hh 0 (by norm_num), hh 1 (by norm_num), hy,
    hz.first] at r0
  rw [ea 1 (by norm_num), ea 2 (by norm_num), eb 1 (by norm_num), eb 2 (by norm_num), gammaAt, gammaAt, hh 1 (by norm_num), hh 2 (by norm_num), hy] at r1
  rw [ea 2 (by norm_num), ea 3 (by norm_num), eb 2 (by norm_num), eb 3 (by norm_num), gammaAt, gammaAt, hh 2 (by norm_num), hh 3 (by norm_num), hy,
    hz.last] at r2
  generalize aAt tau (fun i => (i : ℝ)) 0 = a at *
  generalize betaAt tau (fun i => (i : ℝ)) 0 = b at *
  simp [at', hz1] at r0 r1 r2
  have z2 : (4 * b * b - a * a) * z 2 = 0 := by linear_combination 2 * b * r1 - a * r2
  have : z 2 = 0 := (mul_eq_zero.1 z2).resolve_left (by nlinarith)
  rw [this] at r0
  simp at r0
  exact ht.ne' r0

end Ecl.TensionTrajectory
