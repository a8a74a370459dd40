import Verif.Lemmas.TensionTrajectoryEnds

/-! # Tension spline trajectories with large limits -/
set_option autoImplicit false
set_option linter.unusedSimpArgs false

namespace Ecl.TensionTrajectory
open Ecl Ecl.Poly Ecl.Manip Ecl.TensionSpline Ecl.Spec
open Ecl.SmoothLinear (Within)
open Ecl.LinearTrajectory (Kept Ready kept_refl kept_trans kept_get stretchOne configureEnds)
open Ecl.CubicSpline (at')

theorem exists_bound (f : ℕ → ℝ) (n : ℕ) : ∃ B, ∀ i < n, |f i| ≤ B :=
  ⟨∑ i ∈ Finset.range n, |f i|, fun i hi =>
    Finset.single_le_sum (f := fun i => |f i|) (fun i _ => abs_nonneg _) (Finset.mem_range.2 hi)⟩

theorem Splined.unique {mode : Mode} {tau t : ℝ} {ws : List WayPoint} {j : ℕ} {s s' : Spline} (h : Splined mode tau t ws j s)
    (h' : Splined mode tau t ws j s') : s = s' := by
  obtain ⟨z, hz⟩ := h
  obtain ⟨z', hz'⟩ := h'
  have := hz.made
  rw [hz'.made] at this
  exact (Outcome.ok.inj this).symm

/-- The splines of all joints have a common bound. -/
theorem splines_bounded (mode : Mode) {d : ℕ} {tau : ℝ} (ht : 0 < tau) (t : ℝ) {ws : List WayPoint} (hr : Ready d ws) (h3 : 3 ≤ ws.length) :
    ∃ B, ∀ j < d, ∀ s, Splined mode tau t ws j s → ∀ x, t ≤ x → x ≤ t + (durations ws).sum →
      ∃ v, curvature mode s x = .ok v ∧ |v| ≤ B := by
  obtain ⟨ss, -, hs⟩ := generate_spec mode t hr h3 ht
  have h : ∀ j, ∃ B : ℝ, j < d → ∀ s, Splined mode tau t ws j s → ∀ x, t ≤ x → x ≤ t + (durations ws).sum →
      ∃ v, curvature mode s x = .ok v ∧ |v| ≤ B := by
    intro j
    by_cases hj : j < d
    · obtain ⟨s, -, hsj⟩ := made_get hs hj
      obtain ⟨z, hz⟩ := hsj
      obtain ⟨B, hB⟩ := exists_bound z (ws.length - 3 + 3)
      refine ⟨B, fun _ s' hs' x h0 h1 => ?_⟩
      rw [hs'.unique ⟨z, hz⟩]
      obtain ⟨-, -, k3, k4, -⟩ := knots_spec hr t
      refine hz.bounded ht (fun i hi => hB i (by omega)) ?_
      rw [k3, show ws.length - 3 + 2 = ws.length - 1 by omega, k4]
      exact ⟨h0, h1⟩
    · exact ⟨0, fun h => absurd h hj⟩
  choose B hB using h
  obtain ⟨C, hC⟩ := exists_bound B d
  refine ⟨C, fun j hj s hs x h0 h1 => ?_⟩
  obtain ⟨v, e, hv⟩ := hB j hj s hs x h0 h1
  exact ⟨v, e, hv.trans ((le_abs_self _).trans (hC j hj))⟩

theorem at_knotTimes_mem {d : ℕ} {ws : List WayPoint} (hr : Ready d ws) (t : ℝ) {i : ℕ} (hi : i < ws.length) :
    t ≤ at' (knotTimes t (durations ws)) i ∧ at' (knotTimes t (durations ws)) i ≤ t + (durations ws).sum := by
  rw [knotTimes_at _ _ _ (by rw [durations_length]; omega)]
  have h1 := sum_take_le (durations_pos hr) i
  have h2 : 0 ≤ ((durations ws).take i).sum := List.sum_nonneg fun x hx => (durations_pos hr x (List.mem_of_mem_take hx)).le
  constructor <;> linarith

theorem knotLoop_now (mode : Mode) {d : ℕ} (hd : 0 < d) {tau : ℝ} (ht : 0 < tau) {ws : List WayPoint} (hr : Ready d ws)
    (h3 : 3 ≤ ws.length) {B : ℝ} (hB : ∀ j < d, ∀ s, Splined mode tau 0 ws j s → ∀ x, 0 ≤ x → x ≤ 0 + (durations ws).sum →
      ∃ v, curvature mode s x = .ok v ∧ |v| ≤ B) (amax : List ℝ) (ha : ∀ j < d, B < at' amax j) (passes : ℕ) :
    knotLoop mode d amax tau (passes + 1) ws = some (.ok ws) := by
  obtain ⟨ss, eg, hs⟩ := generate_spec mode 0 hr h3 ht
  obtain ⟨s0, g0, hs0⟩ := made_get hs hd
  rw [knotLoop, eg]
  simp only [Outcome.bind]
  rw [Arr_get_some mode g0]
  simp only
  rw [hs0.domain, knotPass_kept]
  intro p hp
  obtain ⟨p1, p2, p3⟩ := innerKnots_mem hr 0 hp
  refine violating_none _ _ _ _ _ fun j hj => ?_
  have hj := List.mem_range.1 hj
  obtain ⟨s, g, hsj⟩ := made_get hs hj
  obtain ⟨m1, m2⟩ := at_knotTimes_mem hr 0 (i := p.1) (by omega)
  obtain ⟨v, e, hv⟩ := hB j hj s hsj p.2 (by rw [p3]; exact m1) (by rw [p3]; exact m2)
  exact ⟨s, v, g, e, hv.trans (ha j hj).le⟩

theorem knotLoop_large (mode : Mode) {d : ℕ} (hd : 0 < d) {tau : ℝ} (ht : 0 < tau) {ws : List WayPoint} (hr : Ready d ws)
    (h3 : 3 ≤ ws.length) : ∃ A, ∀ amax : List ℝ, (∀ j < d, A < at' amax j) → ∀ passes,
      knotLoop mode d amax tau (passes + 1) ws = some (.ok ws) := by
  obtain ⟨B, hB⟩ := splines_bounded mode ht 0 hr h3
  exact ⟨B, fun amax ha passes => knotLoop_now mode hd ht hr h3 hB amax ha passes⟩

theorem quintics_large (quintic : ℕ → Outcome (ℝ × ℝ × Coeffs ℝ)) : ∀ (js : List ℕ), (∀ j ∈ js, ∃ q, quintic j = .ok q) →
    ∃ A, ∀ amax : List ℝ, (∀ j ∈ js, A < at' amax j) → ∃ qs, quintics amax quintic js = .ok (some qs) := by
  intro js
  induction js with
  | nil => intro _; exact ⟨0, fun _ _ => ⟨[], rfl⟩⟩
  | cons j js ih =>
    intro h
    obtain ⟨A, hA⟩ := ih fun k hk => h k (by simp [hk])
    obtain ⟨⟨lo, hi, c⟩, hq⟩ := h j (by simp)
    refine ⟨max A (max |maximumCubic lo hi (derivative 4 (derivative 5 c))|
      |minimumCubic lo hi (derivative 4 (derivative 5 c))|), fun amax ha => ?_⟩
    obtain ⟨qs, hqs⟩ := hA amax fun k hk => (max_lt_iff.1 (ha k (by simp [hk]))).1
    have h2 := (max_lt_iff.1 (ha j (by simp))).2
    rw [max_lt_iff] at h2
    refine ⟨c :: qs, ?_⟩
    rw [quintics, hq]
    simp only [Outcome.bind]
    rw [if_pos ⟨h2.1.trans_le (le_abs_self _), h2.2.trans_le (le_abs_self _)⟩, hqs]
    rfl

theorem leadingLoop_now (mode : Mode) {d : ℕ} {tau : ℝ} {ws : List WayPoint} {ss : List TensionSpline.Spline} {amax : List ℝ}
    {qs : List (Coeffs ℝ)} (eg : generate mode d tau ((wp ws 0).duration / 10) ws = .ok ss)
    (hqs : quintics amax (leadingQuintic mode (wp ws 0) ss ((wp ws 0).duration / 10)) (List.range d) = .ok (some qs)) (passes : ℕ) :
    leadingLoop mode d amax tau (passes + 1) ws = some (.ok (ws, (wp ws 0).duration / 10, qs)) := by
  have h1 : leadingAttempt mode d amax tau ws 1 = .ok ((wp ws 0).duration / 10, some qs) := by
    unfold leadingAttempt
    simp only [Nat.cast_one, one_mul]
    rw [eg]
    simp only [Outcome.bind]
    rw [hqs]
  rw [leadingLoop, attempts, h1]
  rfl

theorem leading_large (mode : Mode) {d : ℕ} {tau : ℝ} (ht : 0 < tau) {ws : List WayPoint} (hr : Ready d ws) (h3 : 3 ≤ ws.length) :
    ∃ ss, generate mode d tau ((wp ws 0).duration / 10) ws = .ok ss ∧ ∃ A, ∀ amax : List ℝ, (∀ j < d, A < at' amax j) →
      ∃ qs, quintics amax (leadingQuintic mode (wp ws 0) ss ((wp ws 0).duration / 10)) (List.range d) = .ok (some qs) := by
  have hp := wp_pos hr (i := 0) (by omega)
  obtain ⟨ss, eg, hs⟩ := generate_spec mode ((wp ws 0).duration / 10) hr h3 ht
  obtain ⟨A, hA⟩ := quintics_large (leadingQuintic mode (wp ws 0) ss ((wp ws 0).duration / 10)) (List.range d) (fun j hj => by
    obtain ⟨s, y, yd, c, -, -, -, -, -, h⟩ := leadingQuintic_total mode hr h3 (t := (wp ws 0).duration / 10) (by positivity) (by linarith) hs (List.mem_range.1 hj)
    exact ⟨_, h⟩)
  exact ⟨ss, eg, A, fun amax ha => hA amax fun j hj => ha j (List.mem_range.1 hj)⟩

theorem leadingLoop_large (mode : Mode) {d : ℕ} {tau : ℝ} (ht : 0 < tau) {ws : List WayPoint} (hr : Ready d ws)
    (h3 : 3 ≤ ws.length) : ∃ A, ∀ amax : List ℝ, (∀ j < d, A < at' amax j) → ∃ qs, ∀ passes,
      leadingLoop mode d amax tau (passes + 1) ws = some (.ok (ws, (wp ws 0).duration / 10, qs)) := by
  obtain ⟨ss, eg, A, hA⟩ := leading_large mode ht hr h3
  refine ⟨A, fun amax ha => ?_⟩
  obtain ⟨qs, hqs⟩ := hA amax ha
  exact ⟨qs, fun passes => leadingLoop_now mode eg hqs passes⟩

theorem trailingLoop_now (mode : Mode) {d : ℕ} (hd : 0 < d) {tau : ℝ} (start : ℝ) {ws : List WayPoint} (hr : Ready d ws)
    {ss ps : List _} {amax : List ℝ} (eg : generate mode d tau start ws = .ok ss)
    (hs : List.Forall₂ (Splined mode tau start ws) (List.range d) ss)
    (hq : quintics amax (trailingQuintic mode (wp ws (ws.length - 1)) ss (start + (durations ws).sum)
      ((wp ws (ws.length - 2)).duration / 10)) (List.range d) = .ok (some ps)) (qs : List (Coeffs ℝ)) (passes : ℕ) :
    ∃ tr, trailingLoop mode d amax tau start qs (passes + 1) ws = some (.ok tr) ∧ tr.waypoints = ws := by
  obtain ⟨s0, g0, hs0⟩ := made_get hs hd
  have etf : s0.domain.getLastD 0 = start + (durations ws).sum := by rw [hs0.domain]; exact (knots_spec hr start).2.2.2.2
  have h1 : trailingAttempt mode d amax ws ss 1 = .ok ((wp ws (ws.length - 2)).duration / 10, some ps) := by
    unfold trailingAttempt
    simp only [Nat.cast_one, one_mul]
    rw [Arr_get_some mode g0]
    simp only [Outcome.bind]
    rw [etf, hq]
  rw [trailingLoop, show 2 * start / 2 = start by ring, eg]
  simp only
  rw [attempts, h1]
  simp only [Outcome.bind]
  rw [Arr_get_some mode g0]
  exact ⟨_, rfl, rfl⟩

theorem trailingLoop_large (mode : Mode) {d : ℕ} (hd : 0 < d) {tau : ℝ} (ht : 0 < tau) (start : ℝ) {ws : List WayPoint} (hr : Ready d ws)
    (h3 : 3 ≤ ws.length) : ∃ A, ∀ amax : List ℝ, (∀ j < d, A < at' amax j) → ∀ qs passes,
      ∃ tr, trailingLoop mode d amax tau start qs (passes + 1) ws = some (.ok tr) ∧ tr.waypoints = ws := by
  have hp := wp_pos hr (i := ws.length - 2) (by omega)
  obtain ⟨ss, eg, hs⟩ := generate_spec mode start hr h3 ht
  obtain ⟨A, hA⟩ := quintics_large (trailingQuintic mode (wp ws (ws.length - 1)) ss (start + (durations ws).sum)
      ((wp ws (ws.length - 2)).duration / 10)) (List.range d) (fun j hj => by
    obtain ⟨s, y, yd, c, -, -, -, -, -, h⟩ := trailingQuintic_total mode hr h3 (t := (wp ws (ws.length - 2)).duration / 10) (by positivity) (by linarith) hs (List.mem_range.1 hj)
    exact ⟨_, h⟩)
  refine ⟨A, fun amax ha qs passes => ?_⟩
  obtain ⟨ps, hps⟩ := hA amax fun j hj => ha j (List.mem_range.1 hj)
  exact trailingLoop_now mode hd start hr eg hs hps qs passes

/-- The three loops together. -/
theorem built {mode : Mode} {d : ℕ} (hd : 0 < d) {amax : List ℝ} {tau : ℝ} (ht : 0 < tau) {passes : ℕ} {ws ws1 ws2 : List WayPoint}
    {start : ℝ} {qs : List (Coeffs ℝ)} {tr : Trajectory} (hr : Ready d ws) (h3 : 3 ≤ ws.length)
    (h1 : knotLoop mode d amax tau passes ws = some (.ok ws1))
    (h2 : leadingLoop mode d amax tau passes (configureEnds ws1) = some (.ok (ws2, start, qs)))
    (h4 : trailingLoop mode d amax tau start qs passes ws2 = some (.ok tr)) :
    build mode d amax tau passes ws = some (.ok tr) ∧ ∃ t, Laid mode d amax tau ws ws2 start t tr := by
  have hb : build mode d amax tau passes ws = some (.ok tr) := by
    unfold build
    rw [h1]
    simp only
    rw [h2]
    exact h4
  refine ⟨hb, ?_⟩
  rcases knotLoop_spec mode hd amax ht passes ws hr h3 with h | ⟨ws1', h, k1⟩
  · rw [h] at h1; cases h1
  rw [h] at h1
  cases h1
  have hr1 := hr.kept k1
  obtain ⟨k2, c0, cn⟩ := configureEnds_kept hr1.two
  have hr2 := hr1.kept k2
  have l2 : 3 ≤ (configureEnds ws1).length := by rw [← k2.length_eq, ← k1.length_eq]; exact h3
  rcases leadingLoop_spec mode amax ht passes _ hr2 l2 with h | ⟨ws2', start', qs', h, k3, p1, p2, hl⟩
  · rw [h] at h2; cases h2
  rw [h] at h2
  cases h2
  have hr3 := hr2.kept k3
  have l3 : 3 ≤ ws2.length := by rw [← k3.length_eq]; exact l2
  rcases trailingLoop_spec mode hd amax ht start qs passes ws2 hr3 l3 with h | ⟨tr', t, h, k4, F⟩
  · rw [h] at h4; cases h4
  rw [h] at h4
  cases h4
  have l4 := k4.length_eq
  refine ⟨t, kept_trans k1 (kept_trans k2 k3), k4, hr3.kept k4, by omega, ?_, ?_, p1, p2, ?_, ?_⟩
  · exact configured_kept k3 (by omega) c0
  · refine configured_kept k4 (by omega) (configured_kept k3 (by rw [k3.length_eq]; omega) ?_)
    rw [k2.length_eq, k3.length_eq, k4.length_eq] at cn
    exact cn
  · rw [F.leading]; exact hl
  · exact ⟨rfl, F.first, F.middle, F.pos, F.half, F.second, F.duration, F.trailing⟩

/-- With large enough limits nothing is stretched, and the spline keeps the limits as well. -/
theorem build_large (mode : Mode) {d : ℕ} (hd : 0 < d) {tau : ℝ} (ht : 0 < tau) {ws : List WayPoint} (hr : Ready d ws) (h3 : 3 ≤ ws.length) :
    ∃ A, ∀ amax : List ℝ, (∀ j < d, A < at' amax j) → ∀ passes, ∃ tr t, build mode d amax tau (passes + 1) ws = some (.ok tr) ∧
      tr.waypoints = configureEnds ws ∧
      Laid mode d amax tau ws tr.waypoints ((wp ws 0).duration / 10) t tr ∧
      ∀ j < d, ∀ s, Splined mode tau ((wp ws 0).duration / 10) tr.waypoints j s → ∀ x, (wp ws 0).duration / 10 ≤ x →
        x ≤ (wp ws 0).duration / 10 + (durations tr.waypoints).sum → ∃ v, curvature mode s x = .ok v ∧ |v| ≤ at' amax j := by
  obtain ⟨k2, c0, cn⟩ := configureEnds_kept hr.two
  have hr2 := hr.kept k2
  have l2 : 3 ≤ (configureEnds ws).length := by rw [← k2.length_eq]; exact h3
  have e0 : (wp (configureEnds ws) 0).duration = (wp ws 0).duration := by
    obtain ⟨w0, middle, wn, rfl⟩ := LinearTrajectory.exists_ends hr.two
    rw [LinearTrajectory.configureEnds_eq]
    show (LinearTrajectory.configure w0).duration = w0.duration
    unfold LinearTrajectory.configure
    split <;> rfl
  obtain ⟨A1, h1⟩ := knotLoop_large mode hd ht hr h3
  obtain ⟨A2, h2⟩ := leadingLoop_large mode ht hr2 l2
  obtain ⟨A3, h4⟩ := trailingLoop_large mode hd ht ((wp ws 0).duration / 10) hr2 l2
  obtain ⟨A4, h5⟩ := splines_bounded mode ht ((wp ws 0).duration / 10) hr2 l2
  refine ⟨max (max A1 A2) (max A3 A4), fun amax ha passes => ?_⟩
  have hall : ∀ j < d, (A1 < at' amax j ∧ A2 < at' amax j) ∧ A3 < at' amax j ∧ A4 < at' amax j := by
    intro j hj
    have := ha j hj
    rw [max_lt_iff, max_lt_iff, max_lt_iff] at this
    exact this
  obtain ⟨qs, hqs⟩ := h2 amax fun j hj => (hall j hj).1.2
  have hqs := hqs passes
  rw [e0] at hqs
  obtain ⟨tr, htr, ew⟩ := h4 amax (fun j hj => (hall j hj).2.1) qs passes
  obtain ⟨hb, t, L⟩ := built hd ht hr h3 (h1 amax (fun j hj => (hall j hj).1.1) passes) hqs htr
  refine ⟨tr, t, hb, ew, ew ▸ L, ?_⟩
  · intro j hj s hs x x0 x1
    rw [ew] at hs x1
    obtain ⟨v, e, hv⟩ := h5 j hj s hs x x0 x1
    exact ⟨v, e, hv.trans (hall j hj).2.2.le⟩

end Ecl.TensionTrajectory

namespace Ecl.TensionTrajectory
open Ecl Ecl.Poly Ecl.Manip Ecl.TensionSpline Ecl.Spec
open Ecl.SmoothLinear (Within)
open Ecl.LinearTrajectory (Kept Ready kept_refl kept_trans kept_get stretchOne configureEnds smooth_congr)
open Ecl.CubicSpline (at')

theorem quintic_once {v d : ℝ → Outcome ℝ} (p : Coeffs ℝ) {a b : ℝ} (hv : ∀ x ∈ Set.Icc a b, v x = .ok (eval 5 p x))
    (hd : ∀ x ∈ Set.Icc a b, d x = .ok (derivativeAt 5 p x)) : OnceSmooth v d a b :=
  ⟨_, _, fun x hx => ⟨hv x hx, hd x hx⟩, fun x _ => (SmoothLinear.hasDerivAt_eval 5 p x).hasDerivWithinAt,
    fun x _ => (SmoothLinear.hasDerivAt_derivativeAt 5 p x).continuousAt.continuousWithinAt⟩

section
variable {mode : Mode} {d : ℕ} {amax : List ℝ} {tau : ℝ} {ws ws1 : List WayPoint} {start t : ℝ} {tr : Trajectory}
  {j : ℕ} {p q : Coeffs ℝ} {s : TensionSpline.Spline}

/-- The spline on its whole domain. -/
theorem Laid.spline_smooth (L : Laid mode d amax tau ws ws1 start t tr) (ht : 0 < tau) (P : Parts mode d amax tau ws1 start t tr j p q s) :
    TwiceSmooth (value mode s) (slope mode s) (curvature mode s) start (start + (durations tr.waypoints).sum) := by
  obtain ⟨z, hz⟩ := P.spline
  have h3 := L.three
  obtain ⟨-, -, k3, k4, -⟩ := knots_spec L.ready start
  have := hz.smooth ht
  rw [k3, show tr.waypoints.length - 3 + 2 = tr.waypoints.length - 1 by omega, k4] at this
  exact this

theorem Laid.inside (L : Laid mode d amax tau ws ws1 start t tr) : start < tr.first ∧ tr.second < start + (durations tr.waypoints).sum := by
  have F := L.finished
  have := L.pos
  have := F.pos
  rw [F.first, F.second]
  constructor <;> linarith

theorem Laid.first_part (L : Laid mode d amax tau ws ws1 start t tr) (P : Parts mode d amax tau ws1 start t tr j p q s) :
    TwiceSmooth (tr.value mode j) (tr.rate mode j) (tr.acceleration mode j) 0 tr.first ∧
    ∀ x ∈ Set.Icc 0 tr.first, ∃ v, tr.acceleration mode j x = .ok v ∧ |v| ≤ |at' amax j| := by
  obtain ⟨f0, f1, f2⟩ := L.first_lt
  refine ⟨quintic_smooth p ?_ ?_ ?_, ?_⟩
  · exact fun x hx => evaluate_first _ _ P.hp P.hs P.hq f1 f2 hx.1 hx.2
  · exact fun x hx => evaluate_first _ _ P.hp P.hs P.hq f1 f2 hx.1 hx.2
  · exact fun x hx => evaluate_first _ _ P.hp P.hs P.hq f1 f2 hx.1 hx.2
  · exact fun x hx => ⟨_, evaluate_first _ _ P.hp P.hs P.hq f1 f2 hx.1 hx.2, P.boundLead x hx⟩

theorem Laid.last_part (L : Laid mode d amax tau ws ws1 start t tr) (P : Parts mode d amax tau ws1 start t tr j p q s) :
    OnceSmooth (tr.value mode j) (tr.rate mode j) tr.second tr.duration ∧
    ∀ x, tr.second < x → x ≤ tr.duration → ∃ v, tr.acceleration mode j x = .ok v ∧ |v| ≤ |at' amax j| := by
  obtain ⟨f0, f1, f2⟩ := L.first_lt
  refine ⟨quintic_once q ?_ ?_, ?_⟩
  · intro x hx
    rcases hx.1.eq_or_lt with h | h
    · rw [← h, ← P.trail.1]; exact evaluate_second _ _ P.hp P.hs P.hq f0 f2 f1 (le_refl _)
    · exact evaluate_third _ _ P.hp P.hs P.hq f0 f1 h hx.2
  · intro x hx
    rcases hx.1.eq_or_lt with h | h
    · rw [← h, ← P.trail.2]; exact evaluate_second _ _ P.hp P.hs P.hq f0 f2 f1 (le_refl _)
    · exact evaluate_third _ _ P.hp P.hs P.hq f0 f1 h hx.2
  · exact fun x h1 h2 => ⟨_, evaluate_third _ _ P.hp P.hs P.hq f0 f1 h1 h2, P.boundTrail x ⟨h1.le, h2⟩⟩

theorem Laid.middle_part (L : Laid mode d amax tau ws ws1 start t tr) (ht : 0 < tau) (P : Parts mode d amax tau ws1 start t tr j p q s) {a : ℝ}
    (ha : tr.first < a) : TwiceSmooth (tr.value mode j) (tr.rate mode j) (tr.acceleration mode j) a tr.second := by
  obtain ⟨f0, f1, f2⟩ := L.first_lt
  obtain ⟨i1, i2⟩ := L.inside
  refine smooth_congr ((L.spline_smooth ht P).within (a' := a) (b' := tr.second) (by linarith) i2.le) fun x hx => ⟨?_, ?_, ?_⟩
  · exact evaluate_second _ _ P.hp P.hs P.hq f0 f2 (ha.trans_le hx.1) hx.2
  · exact evaluate_second _ _ P.hp P.hs P.hq f0 f2 (ha.trans_le hx.1) hx.2
  · exact evaluate_second _ _ P.hp P.hs P.hq f0 f2 (ha.trans_le hx.1) hx.2

theorem Laid.tail (L : Laid mode d amax tau ws ws1 start t tr) (ht : 0 < tau) (P : Parts mode d amax tau ws1 start t tr j p q s) {a : ℝ}
    (ha : tr.first < a) (hs : a ≤ tr.second) : OnceSmooth (tr.value mode j) (tr.rate mode j) a tr.duration :=
  (L.middle_part ht P ha).once.append (L.last_part P).1 hs L.first_lt.2.2.le

/-- The leading quintic continues the spline it was made for. -/
theorem Leading.joins (h : Leading mode amax tau start ws1 j p) (h0 : 0 < start) :
    ∃ s', Splined mode tau start ws1 j s' ∧ value mode s' (2 * start) = .ok (eval 5 p (2 * start)) ∧
      slope mode s' (2 * start) = .ok (derivativeAt 5 p (2 * start)) := by
  obtain ⟨s1, y1, yd1, hs, hy, hyd, hc1, hw1⟩ := h
  obtain ⟨c, hc, a1, a2, a3, a4, a5, a6⟩ := Props.C53_quintic 0 (at' (wp ws1 0).angles j) (at' (wp ws1 0).rates j) 0 (2 * start) y1 yd1 0
    (by linarith)
  rw [hc1] at hc
  cases hc
  exact ⟨s1, hs, by rw [hy, a4], by rw [hyd, a5]⟩

/-- If nothing was stretched after the leading quintics were made, the whole is continuously differentiable. -/
theorem Laid.joined (L : Laid mode d amax tau ws tr.waypoints start t tr) (ht : 0 < tau)
    (P : Parts mode d amax tau tr.waypoints start t tr j p q s) : OnceSmooth (tr.value mode j) (tr.rate mode j) 0 tr.duration := by
  obtain ⟨f0, f1, f2⟩ := L.first_lt
  obtain ⟨i1, i2⟩ := L.inside
  obtain ⟨s', hs', hv, hd⟩ := P.lead.joins L.pos
  have := P.spline.unique hs'
  subst this
  rw [← L.finished.first] at hv hd
  refine ((L.first_part P).1.once.append ?_ f0.le f1.le).append (L.last_part P).1 (f0.trans f1).le f2.le
  refine once_congr ((L.spline_smooth ht P).within (a' := tr.first) (b' := tr.second) i1.le i2.le).once fun x hx => ?_
  rcases hx.1.eq_or_lt with h | h
  · rw [← h, hv, hd]
    exact ⟨evaluate_first _ _ P.hp P.hs P.hq f1 f2 f0.le (le_refl _), evaluate_first _ _ P.hp P.hs P.hq f1 f2 f0.le (le_refl _)⟩
  · exact ⟨evaluate_second _ _ P.hp P.hs P.hq f0 f2 h hx.2, evaluate_second _ _ P.hp P.hs P.hq f0 f2 h hx.2⟩

end

theorem kept_stretched {ws ws' : List WayPoint} (hk : List.Forall₂ Kept ws ws') : Stretched ws ws' := by
  refine ⟨hk.length_eq.symm, fun i w hw => ?_⟩
  obtain ⟨hi, rfl⟩ := List.getElem?_eq_some_iff.1 hw
  have hi' : i < ws'.length := hk.length_eq ▸ hi
  obtain ⟨w', e, k⟩ := kept_get hk i _ (List.getElem?_eq_getElem hi')
  rw [hw] at e
  cases e
  exact ⟨_, List.getElem?_eq_getElem hi', k.angles, k.longer⟩

section
variable {tr : Trajectory} {j : ℕ}
variable (f : Coeffs ℝ → ℝ → ℝ) (g : TensionSpline.Spline → ℝ → Outcome ℝ)

theorem evaluate_after {mode : Mode} {p q : Coeffs ℝ} {s : TensionSpline.Spline} (hp : tr.leading[j]? = some p) (hs : tr.middle[j]? = some s)
    (hq : tr.trailing[j]? = some q) {x : ℝ} (h0 : 0 < tr.first) (h12 : tr.first < tr.second) (h23 : tr.second < tr.duration)
    (h1 : tr.duration < x) (h2 : x ≤ tr.duration + 1 / 10000) :
    evaluate f g mode tr j x = evaluate f g mode tr j tr.duration := by
  rw [evaluate_third f g hp hs hq h0 h12 h23 (le_refl _), evaluate_eq f g hp hs hq]
  unfold select Piece.at
  rw [assertThrow_true (by constructor <;> linarith)]
  simp only [Outcome.bind]
  rw [if_neg (by linarith), if_neg (by linarith), if_neg (by linarith), assertThrow_true ⟨h23.le, le_refl _⟩]

theorem evaluate_outside {p q : Coeffs ℝ} {s : TensionSpline.Spline} (hp : tr.leading[j]? = some p) (hs : tr.middle[j]? = some s)
    (hq : tr.trailing[j]? = some q) {x : ℝ} (h : x < 0 ∨ tr.duration + 1 / 10000 < x) :
    evaluate f g .debug tr j x = .throw .outOfRange := by
  rw [evaluate_eq f g hp hs hq]
  unfold select assertThrow
  rw [decide_eq_false (by rintro ⟨h1, h2⟩; rcases h with h | h <;> linarith)]
  rfl

theorem evaluate_beyond (mode : Mode) (h : tr.leading.length ≤ j) (x : ℝ) :
    evaluate f g mode tr j x = CubicSpline.beyond mode := by
  unfold evaluate
  cases mode <;> simp [Arr.get, Arr.rawGet, assertThrow, h, Outcome.bind, CubicSpline.beyond, Nat.not_lt.2 h]
end

end Ecl.TensionTrajectory
