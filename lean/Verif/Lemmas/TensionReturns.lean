import Verif.Lemmas.TensionBound
import Verif.Lemmas.TensionTrajectory
import Verif.Props.C55_Extrema
import Mathlib.Analysis.SpecialFunctions.Log.Basic

/-! # Tension spline trajectories: the three loops end -/
set_option autoImplicit false

namespace Ecl.TensionTrajectory
open Ecl Ecl.Poly Ecl.Manip Ecl.TensionSpline
open Ecl.SmoothLinear (Within)
open Ecl.LinearTrajectory (Kept Ready kept_refl kept_trans kept_get stretchOne)
open Ecl.CubicSpline (at')

/-! ## Quintics over a long time -/

theorem quintic_small {xi yi ydi xf yf ydf V : ℝ} (h : 1 ≤ xf - xi) (h1 : |yi| ≤ V) (h2 : |ydi| ≤ V) (h3 : |yf| ≤ V) (h4 : |ydf| ≤ V)
    {c : Coeffs ℝ} (hc : quinticInterpolation xi yi ydi 0 xf yf ydf 0 = .ok c) {x : ℝ} (hx : x ∈ Set.Icc xi xf) :
    |dderivativeAt 5 c x| ≤ 1080 * V / (xf - xi) := by
  unfold quinticInterpolation at hc
  simp only at hc
  obtain ⟨c', e, -, -, H⟩ := shiftUnlessZero_spec (n := 5) (by norm_num) (ofList [yi, ydi, 0 / 2,
    (20 * (yf - yi) - (8 * ydf + 12 * ydi) * (xf - xi) - (3 * 0 - 0) * (xf - xi) * (xf - xi)) / (2 * ((xf - xi) * (xf - xi) * (xf - xi))),
    (30 * (yi - yf) + (14 * ydf + 16 * ydi) * (xf - xi) + (-2 * 0 + 3 * 0) * (xf - xi) * (xf - xi)) /
      (2 * ((xf - xi) * (xf - xi) * (xf - xi) * (xf - xi))),
    (12 * (yf - yi) - (6 * ydf + 6 * ydi) * (xf - xi) - (0 - 0) * (xf - xi) * (xf - xi)) /
      (2 * ((xf - xi) * (xf - xi) * (xf - xi) * (xf - xi) * (xf - xi)))]) xi
  rw [e] at hc
  cases hc
  rw [H]
  set L := xf - xi with hL
  have Lp : 0 < L := by linarith
  set r := (x - xi) / L with hr
  have er : x - xi = r * L := by rw [hr]; field_simp
  have r0 : 0 ≤ r := div_nonneg (by linarith [hx.1]) Lp.le
  have r1 : r ≤ 1 := (div_le_one Lp).2 (by rw [hL]; linarith [hx.2])
  rw [er]
  have e2 : dderivativeAt 5 (ofList [yi, ydi, 0 / 2,
      (20 * (yf - yi) - (8 * ydf + 12 * ydi) * L - (3 * 0 - 0) * L * L) / (2 * (L * L * L)),
      (30 * (yi - yf) + (14 * ydf + 16 * ydi) * L + (-2 * 0 + 3 * 0) * L * L) / (2 * (L * L * L * L)),
      (12 * (yf - yi) - (6 * ydf + 6 * ydi) * L - (0 - 0) * L * L) / (2 * (L * L * L * L * L))]) (r * L) =
      ((yf - yi) / L * (60 * r - 180 * r ^ 2 + 120 * r ^ 3) + ydi * (-36 * r + 96 * r ^ 2 - 60 * r ^ 3) +
        ydf * (-24 * r + 84 * r ^ 2 - 60 * r ^ 3)) / L := by
    simp [dderivativeAt, derivative, eval, evalLoop, ofList]
    field_simp
    ring
  rw [e2, abs_div, abs_of_pos Lp]
  refine div_le_div_of_nonneg_right ?_ Lp.le
  have V0 : 0 ≤ V := (abs_nonneg _).trans h1
  have r2 : r ^ 2 ≤ 1 := pow_le_one₀ r0 r1
  have r3 : r ^ 3 ≤ 1 := pow_le_one₀ r0 r1
  have p2 : 0 ≤ r ^ 2 := by positivity
  have p3 : 0 ≤ r ^ 3 := by positivity
  have g : ∀ p q A K : ℝ, |p| ≤ A → |q| ≤ K → |p * q| ≤ A * K := fun p q A K hp hq => by
    rw [abs_mul]; exact mul_le_mul hp hq (abs_nonneg _) ((abs_nonneg _).trans hp)
  have k1 : |60 * r - 180 * r ^ 2 + 120 * r ^ 3| ≤ 180 := by rw [abs_le]; constructor <;> linarith
  have k2 : |-36 * r + 96 * r ^ 2 - 60 * r ^ 3| ≤ 180 := by rw [abs_le]; constructor <;> linarith
  have k3 : |-24 * r + 84 * r ^ 2 - 60 * r ^ 3| ≤ 180 := by rw [abs_le]; constructor <;> linarith
  have d1 : |(yf - yi) / L| ≤ 2 * V := by
    rw [abs_div, abs_of_pos Lp, div_le_iff₀ Lp]
    have := abs_sub yf yi
    nlinarith
  have a1 := g _ _ _ _ d1 k1
  have a2 := g _ _ _ _ h2 k2
  have a3 := g _ _ _ _ h4 k3
  refine (abs_add_le _ _).trans ((add_le_add (abs_add_le _ _) (le_refl _)).trans ?_)
  linarith

theorem within_of_le {amax lo hi B : ℝ} {c : Coeffs ℝ} (h : lo ≤ hi) (hB : ∀ x ∈ Set.Icc lo hi, |dderivativeAt 5 c x| ≤ B) (ha : B < |amax|) :
    Within amax lo hi c := by
  obtain ⟨⟨x, hx, e⟩, -⟩ := Props.C55_maximum_cubic (derivative 4 (derivative 5 c)) lo hi h
  obtain ⟨⟨y, hy, e'⟩, -⟩ := Props.C55_minimum_cubic (derivative 4 (derivative 5 c)) lo hi h
  exact ⟨by rw [← e]; exact lt_of_le_of_lt (hB x hx) ha, by rw [← e']; exact lt_of_le_of_lt (hB y hy) ha⟩

/-- A time from which on every quintic between bounded values and rates keeps the limit `A`. -/
theorem exists_long {V A : ℝ} (hA : 0 < A) : ∃ T, 0 < T ∧ ∀ (amax xi yi ydi xf yf ydf : ℝ) (c : Coeffs ℝ), A ≤ amax → T ≤ xf - xi →
    |yi| ≤ V → |ydi| ≤ V → |yf| ≤ V → |ydf| ≤ V → quinticInterpolation xi yi ydi 0 xf yf ydf 0 = .ok c → Within amax xi xf c := by
  refine ⟨max 1 (1080 * |V| / A + 1), lt_of_lt_of_le one_pos (le_max_left _ _), ?_⟩
  intro amax xi yi ydi xf yf ydf c ha hT h1 h2 h3 h4 hc
  have t1 := (le_max_left _ _).trans hT
  have t2 := (le_max_right _ _).trans hT
  refine within_of_le (by linarith) (fun x hx => quintic_small t1 h1 h2 h3 h4 hc hx) ?_
  have V0 : 0 ≤ V := (abs_nonneg _).trans h1
  rw [abs_of_nonneg V0] at t2
  refine lt_of_lt_of_le ?_ (ha.trans (le_abs_self _))
  rw [div_lt_iff₀ (by linarith)]
  have : 1080 * V / A < xf - xi := by linarith
  rw [div_lt_iff₀ hA] at this
  linarith

/-! ## Waypoints that differ in their durations -/

/-- What stays the same while durations grow: the number of waypoints, their angles and rates; no duration falls
below `h0`. -/
structure Env (d n : ℕ) (h0 V : ℝ) (ws : List WayPoint) : Prop where
  ready : Ready d ws
  length : ws.length = n
  long : ∀ i, i + 1 < n → h0 ≤ (wp ws i).duration
  angles : ∀ i, i < n → ∀ j, |at' (wp ws i).angles j| ≤ V
  rates : ∀ i, i < n → ∀ j, |at' (wp ws i).rates j| ≤ V

theorem kept_wp {a b : List WayPoint} (h : List.Forall₂ Kept a b) {i : ℕ} (hi : i < a.length) : Kept (wp a i) (wp b i) := by
  obtain ⟨w, hw, hk⟩ := kept_get h i (wp b i) (wp_get b (h.length_eq ▸ hi))
  rw [wp_get a hi] at hw
  cases hw
  exact hk

theorem at_replicate (n j : ℕ) : at' (List.replicate n (0 : ℝ)) j = 0 := by
  unfold at'
  rw [List.getD_eq_getElem?_getD, List.getElem?_replicate]
  split <;> rfl

theorem Env.kept {d n : ℕ} {h0 V : ℝ} {ws ws' : List WayPoint} (h : Env d n h0 V ws) (hk : List.Forall₂ Kept ws ws') : Env d n h0 V ws' := by
  have hl := h.length
  refine ⟨h.ready.kept hk, hk.length_eq ▸ hl, fun i hi => ?_, fun i hi j => ?_, fun i hi j => ?_⟩
  · exact (h.long i hi).trans (kept_wp hk (by omega)).longer
  · rw [(kept_wp hk (by omega)).angles]; exact h.angles i hi j
  · rcases (kept_wp hk (i := i) (by omega)).rates with ⟨e, -⟩ | ⟨-, e, -⟩
    · rw [e]; exact h.rates i hi j
    · rw [e, at_replicate, abs_zero]; exact (abs_nonneg _).trans (h.angles i hi j)

theorem exists_le (l : List ℝ) : ∃ B, 0 ≤ B ∧ ∀ j, |at' l j| ≤ B := by
  induction l with
  | nil => exact ⟨0, le_refl _, fun j => by simp [at']⟩
  | cons a l ih =>
    obtain ⟨B, h0, h⟩ := ih
    refine ⟨max |a| B, (abs_nonneg a).trans (le_max_left _ _), fun j => ?_⟩
    cases j with
    | zero => exact le_max_left _ _
    | succ j => exact (h j).trans (le_max_right _ _)

theorem exists_env {d : ℕ} {ws : List WayPoint} (h : Ready d ws) : ∃ h0 V, 0 < h0 ∧ Env d ws.length h0 V ws := by
  have h1 : ∃ h0, 0 < h0 ∧ ∀ i, i + 1 < ws.length → h0 ≤ (wp ws i).duration := by
    obtain ⟨i, hi, hm⟩ := Finset.exists_min_image (Finset.range (ws.length - 1)) (fun i => (wp ws i).duration)
      ⟨0, by have := h.two; simp; omega⟩
    refine ⟨_, wp_pos h (i := i) (by simp at hi; omega), fun k hk => hm k (by simp; omega)⟩
  have h2 : ∀ f : WayPoint → List ℝ, ∃ V, ∀ i, i < ws.length → ∀ j, |at' (f (wp ws i)) j| ≤ V := by
    intro f
    choose B hB0 hB using fun i => exists_le (f (wp ws i))
    obtain ⟨i, hi, hm⟩ := Finset.exists_max_image (Finset.range ws.length) B ⟨0, by have := h.two; simp; omega⟩
    exact ⟨B i, fun k hk j => (hB k j).trans (hm k (by simpa using hk))⟩
  obtain ⟨h0, hp, hl⟩ := h1
  obtain ⟨A, hA⟩ := h2 WayPoint.angles
  obtain ⟨R, hR⟩ := h2 WayPoint.rates
  exact ⟨h0, max A R, hp, h, rfl, hl, fun i hi j => (hA i hi j).trans (le_max_left _ _), fun i hi j => (hR i hi j).trans (le_max_right _ _)⟩

theorem hAt_knots {d : ℕ} {ws : List WayPoint} (h : Ready d ws) (t : ℝ) {i : ℕ} (hi : i + 1 < ws.length) :
    hAt (at' (knotTimes t (durations ws))) i = (wp ws i).duration := by
  unfold hAt
  have hl : i < (durations ws).length := by rw [durations_length]; omega
  rw [knotTimes_at _ _ _ (by omega), knotTimes_at _ _ _ hl.le, List.sum_take_succ _ _ hl]
  rw [← durations_get ws hi, ← CubicSpline.at_getElem hl]
  ring

theorem jointValues_at (ws : List WayPoint) (j : ℕ) {i : ℕ} (hi : i < ws.length) : at' (jointValues ws j) i = at' (wp ws i).angles j := by
  simp [jointValues, at', wp, List.getD_eq_getElem?_getD, List.getElem?_map, List.getElem?_eq_getElem hi]

/-- Value and slope of every spline, whatever the durations. -/
theorem exists_values {d n : ℕ} {tau h0 V : ℝ} (ht : 0 < tau) (hh : 0 < h0) (h3 : 3 ≤ n) : ∃ W, ∀ (mode : Mode) (ws : List WayPoint) (t : ℝ) (j : ℕ)
    (s : Spline) (x y yd : ℝ), Env d n h0 V ws → Splined mode tau t ws j s → t ≤ x → x ≤ t + (durations ws).sum →
    value mode s x = .ok y → slope mode s x = .ok yd → |y| ≤ W ∧ |yd| ≤ W := by
  obtain ⟨W, H⟩ := exists_uniform (tau := tau) (h0 := h0) (Y := V) ht hh
  refine ⟨W, fun mode ws t j s x y yd he hs h1 h2 hy hyd => ?_⟩
  obtain ⟨z, hz⟩ := hs
  obtain ⟨-, -, k3, k4, -⟩ := knots_spec he.ready t
  have hl := he.length
  obtain ⟨⟨v, e, hv⟩, ⟨u, e', hu⟩⟩ := H mode _ _ _ z s hz
    (fun i hi => by rw [hAt_knots he.ready t (by omega)]; exact he.long i (by omega))
    (fun i hi => by rw [jointValues_at ws j (by omega)]; exact he.angles i (by omega) j) x
    (by rw [k3, show ws.length - 3 + 2 = ws.length - 1 by omega, k4]; exact ⟨h1, h2⟩)
  rw [hy] at e
  rw [hyd] at e'
  cases e
  cases e'
  exact ⟨hv, hu⟩

/-! ## The loops for the ends -/

theorem quintics_within (amax : List ℝ) (quintic : ℕ → Outcome (ℝ × ℝ × Coeffs ℝ)) : ∀ (js : List ℕ),
    (∀ j ∈ js, ∃ lo hi c, quintic j = .ok (lo, hi, c) ∧ Within (at' amax j) lo hi c) → ∃ cs, quintics amax quintic js = .ok (some cs) := by
  intro js
  induction js with
  | nil => intro _; exact ⟨[], rfl⟩
  | cons j js ih =>
    intro h
    obtain ⟨lo, hi, c, e, hw⟩ := h j (by simp)
    obtain ⟨cs, e'⟩ := ih fun k hk => h k (by simp [hk])
    refine ⟨c :: cs, ?_⟩
    rw [quintics, e]
    simp only [Outcome.bind]
    rw [if_pos hw, e']
    rfl

theorem wp_modify {ws : List WayPoint} {i : ℕ} (hi : i < ws.length) (f : WayPoint → WayPoint) : wp (ws.modify i f) i = f (wp ws i) := by
  have h1 := wp_get (ws.modify i f) (i := i) (by simpa using hi)
  rw [List.getElem?_modify, wp_get ws hi] at h1
  simpa using h1.symm

theorem wp_modify_ne {ws : List WayPoint} {i k : ℕ} (hi : k < ws.length) (hk : i ≠ k) (f : WayPoint → WayPoint) :
    wp (ws.modify i f) k = wp ws k := by
  have h1 := wp_get (ws.modify i f) (i := k) (by simpa using hi)
  rw [List.getElem?_modify, wp_get ws hi] at h1
  simpa [hk] using h1.symm

theorem pow_large {h0 T : ℝ} (hh : 0 < h0) : ∃ n : ℕ, T ≤ h0 * (11 / 10) ^ n := by
  obtain ⟨n, hn⟩ := pow_unbounded_of_one_lt (T / h0) (show (1 : ℝ) < 11 / 10 by norm_num)
  refine ⟨n, ?_⟩
  rw [div_lt_iff₀ hh] at hn
  linarith

theorem leading_end (mode : Mode) {d n : ℕ} (amax : List ℝ) {tau h0 V A : ℝ} (ht : 0 < tau) (hh : 0 < h0) (hA : 0 < A) (h3 : 3 ≤ n)
    (ha : ∀ j, j < d → A ≤ at' amax j) : ∃ T, ∀ ws, Env d n h0 V ws → T ≤ (wp ws 0).duration →
      ∃ t qs, attempts (leadingAttempt mode d amax tau ws) 5 1 = .ok (some (t, qs)) := by
  obtain ⟨W, HW⟩ := exists_values (d := d) (V := V) ht hh h3
  obtain ⟨T, -, HT⟩ := exists_long (V := max V W) hA
  refine ⟨5 * T, fun ws he hT => ?_⟩
  have hl := he.length
  have hp := wp_pos he.ready (i := 0) (by omega)
  have hsum := first_le_sum he.ready (i := 0) (by omega)
  obtain ⟨ss, e, hs⟩ := generate_spec mode (((1 : ℕ) : ℝ) * (wp ws 0).duration / 10) he.ready (by omega) ht
  obtain ⟨cs, ec⟩ := quintics_within amax (leadingQuintic mode (wp ws 0) ss (((1 : ℕ) : ℝ) * (wp ws 0).duration / 10)) (List.range d)
    (fun j hj => by
      rw [List.mem_range] at hj
      obtain ⟨s, y, yd, c, -, hsj, hy, hyd, hc, h⟩ := leadingQuintic_total mode (t := ((1 : ℕ) : ℝ) * (wp ws 0).duration / 10)
        he.ready (by omega) (by push_cast; linarith) (by push_cast; linarith) hs hj
      obtain ⟨b1, b2⟩ := HW mode ws _ j s _ y yd he hsj (by push_cast; linarith) (by push_cast; linarith) hy hyd
      refine ⟨_, _, c, h, HT _ _ _ _ _ _ _ c (ha j hj) (by push_cast; linarith) ?_ ?_ ?_ ?_ hc⟩
      · exact (he.angles 0 (by omega) j).trans (le_max_left _ _)
      · exact (he.rates 0 (by omega) j).trans (le_max_left _ _)
      · exact b1.trans (le_max_right _ _)
      · exact b2.trans (le_max_right _ _))
  refine ⟨((1 : ℕ) : ℝ) * (wp ws 0).duration / 10, cs, ?_⟩
  rw [attempts, leadingAttempt, e]
  simp only [Outcome.bind]
  rw [ec]

theorem leadingLoop_ends (mode : Mode) {d n : ℕ} (amax : List ℝ) {tau h0 V A : ℝ} (ht : 0 < tau) (hh : 0 < h0) (hA : 0 < A) (h3 : 3 ≤ n)
    (ha : ∀ j, j < d → A ≤ at' amax j) {ws : List WayPoint} (he : Env d n h0 V ws) :
    ∃ passes r, leadingLoop mode d amax tau passes ws = some r := by
  obtain ⟨T, HT⟩ := leading_end mode (V := V) amax ht hh hA h3 ha
  have main : ∀ (k : ℕ) (ws : List WayPoint), Env d n h0 V ws → T ≤ (wp ws 0).duration * (11 / 10) ^ k →
      ∃ r, leadingLoop mode d amax tau (k + 1) ws = some r := by
    intro k
    induction k with
    | zero =>
      intro ws he hT
      obtain ⟨t, qs, e⟩ := HT ws he (by simpa using hT)
      exact ⟨_, by rw [leadingLoop, e]⟩
    | succ k ih =>
      intro ws he hT
      have hl := he.length
      rw [leadingLoop]
      split
      · exact ⟨_, rfl⟩
      · exact ⟨_, rfl⟩
      · exact ⟨_, rfl⟩
      · have hk : List.Forall₂ Kept ws (ws.modify 0 (stretchOne (11 / 10))) := he.ready.modify (by omega) (by norm_num)
        refine ih _ (he.kept hk) ?_
        rw [wp_modify (by omega)]
        calc T ≤ _ := hT
          _ = _ := by rw [pow_succ]; simp only [stretchOne]; ring
  obtain ⟨k, hk⟩ := pow_large (T := T) (wp_pos he.ready (i := 0) (by have := he.length; omega))
  obtain ⟨r, hr⟩ := main k ws he hk
  exact ⟨_, r, hr⟩

theorem trailing_end (mode : Mode) {d n : ℕ} (hd : 0 < d) (amax : List ℝ) {tau h0 V A : ℝ} (ht : 0 < tau) (hh : 0 < h0) (hA : 0 < A) (h3 : 3 ≤ n)
    (ha : ∀ j, j < d → A ≤ at' amax j) : ∃ T, ∀ ws start ss, Env d n h0 V ws → T ≤ (wp ws (n - 2)).duration →
      List.Forall₂ (Splined mode tau start ws) (List.range d) ss →
      ∃ t qs, attempts (trailingAttempt mode d amax ws ss) 5 1 = .ok (some (t, qs)) := by
  obtain ⟨W, HW⟩ := exists_values (d := d) (V := V) ht hh h3
  obtain ⟨T, -, HT⟩ := exists_long (V := max V W) hA
  refine ⟨5 * T, fun ws start ss he hT hs => ?_⟩
  have hl := he.length
  rw [← hl] at hT
  have hp := wp_pos he.ready (i := ws.length - 2) (by omega)
  have hsum := first_le_sum he.ready (i := ws.length - 2) (by omega)
  obtain ⟨s0, g0, hs0⟩ := made_get hs hd
  have etf : s0.domain.getLastD 0 = start + (durations ws).sum := by rw [hs0.domain]; exact (knots_spec he.ready start).2.2.2.2
  obtain ⟨cs, ec⟩ := quintics_within amax (trailingQuintic mode (wp ws (ws.length - 1)) ss (start + (durations ws).sum)
    (((1 : ℕ) : ℝ) * (wp ws (ws.length - 2)).duration / 10)) (List.range d)
    (fun j hj => by
      rw [List.mem_range] at hj
      obtain ⟨s, y, yd, c, -, hsj, hy, hyd, hc, h⟩ := trailingQuintic_total mode (t := ((1 : ℕ) : ℝ) * (wp ws (ws.length - 2)).duration / 10)
        he.ready (by omega) (by push_cast; linarith) (by push_cast; linarith) hs hj
      obtain ⟨b1, b2⟩ := HW mode ws _ j s _ y yd he hsj (by push_cast; linarith) (by push_cast; linarith) hy hyd
      refine ⟨_, _, c, h, HT _ _ _ _ _ _ _ c (ha j hj) (by push_cast; linarith) ?_ ?_ ?_ ?_ hc⟩
      · exact b1.trans (le_max_right _ _)
      · exact b2.trans (le_max_right _ _)
      · exact (he.angles (ws.length - 1) (by omega) j).trans (le_max_left _ _)
      · exact (he.rates (ws.length - 1) (by omega) j).trans (le_max_left _ _))
  refine ⟨((1 : ℕ) : ℝ) * (wp ws (ws.length - 2)).duration / 10, cs, ?_⟩
  rw [attempts, trailingAttempt, Arr_get_some mode g0]
  simp only [Outcome.bind]
  rw [etf, ec]

theorem trailingLoop_ends (mode : Mode) {d n : ℕ} (hd : 0 < d) (amax : List ℝ) {tau h0 V A : ℝ} (ht : 0 < tau) (hh : 0 < h0) (hA : 0 < A) (h3 : 3 ≤ n)
    (ha : ∀ j, j < d → A ≤ at' amax j) (start : ℝ) (qs : List (Coeffs ℝ)) {ws : List WayPoint} (he : Env d n h0 V ws) :
    ∃ passes r, trailingLoop mode d amax tau start qs passes ws = some r := by
  obtain ⟨T, HT⟩ := trailing_end mode (V := V) hd amax ht hh hA h3 ha
  have main : ∀ (k : ℕ) (ws : List WayPoint), Env d n h0 V ws → T ≤ (wp ws (n - 2)).duration * (11 / 10) ^ k →
      ∃ r, trailingLoop mode d amax tau start qs (k + 1) ws = some r := by
    intro k
    induction k with
    | zero =>
      intro ws he hT
      have hl := he.length
      obtain ⟨ss, eg, hs⟩ := generate_spec mode (2 * start / 2) he.ready (by omega) ht
      obtain ⟨t, qs', e⟩ := HT ws _ ss he (by simpa using hT) hs
      rw [trailingLoop, eg]
      simp only
      rw [e]
      exact ⟨_, rfl⟩
    | succ k ih =>
      intro ws he hT
      have hl := he.length
      obtain ⟨ss, eg, hs⟩ := generate_spec mode (2 * start / 2) he.ready (by omega) ht
      rw [trailingLoop, eg]
      simp only
      split
      · exact ⟨_, rfl⟩
      · exact ⟨_, rfl⟩
      · exact ⟨_, rfl⟩
      · have hk : List.Forall₂ Kept ws (ws.modify (ws.length - 2) (stretchOne (11 / 10))) := he.ready.modify (by omega) (by norm_num)
        refine ih _ (he.kept hk) ?_
        rw [← hl, wp_modify (by omega), hl]
        calc T ≤ _ := hT
          _ = _ := by rw [pow_succ]; simp only [stretchOne]; ring
  obtain ⟨k, hk⟩ := pow_large (T := T) (wp_pos he.ready (i := n - 2) (by have := he.length; omega))
  obtain ⟨r, hr⟩ := main k ws he hk
  exact ⟨_, r, hr⟩

end Ecl.TensionTrajectory
