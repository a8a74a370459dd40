import Verif.Lemmas.LinearTrajectoryEnds

/-! # Smoothed linear trajectories: a limit of zero for the last joint -/
set_option autoImplicit false

namespace Ecl.LinearTrajectory
open Ecl Ecl.Poly Ecl.Manip Ecl.SmoothLinear
open Ecl.CubicSpline (at')

theorem not_within_zero (lo hi : ℝ) (c : Coeffs ℝ) : ¬ Within 0 lo hi c := by
  rintro ⟨h, -⟩
  rw [abs_zero] at h
  exact absurd h (not_lt.2 (abs_nonneg _))

theorem attempts_zero (quintic : ℕ → Outcome (ℝ × ℝ × Coeffs ℝ)) (hq : ∀ i, 1 ≤ i → ∃ q, quintic i = .ok q) :
    ∀ (left i : ℕ) (b : Bool), 1 ≤ i → (b = true ∨ i ≤ 5 ∧ 5 < i + left) → attempts 0 quintic left i b = .ok true := by
  intro left
  induction left with
  | zero =>
    intro i b hi h
    rcases h with rfl | h
    · rfl
    · omega
  | succ left ih =>
    intro i b hi h
    obtain ⟨q, e⟩ := hq i hi
    rw [attempts, e]
    simp only [Outcome.bind]
    rw [if_neg (not_within_zero _ _ _)]
    refine ih (i + 1) _ (by omega) ?_
    by_cases h5 : i = 5
    · left; rw [if_pos h5]
    · rw [if_neg h5]
      rcases h with h | h
      · exact Or.inl h
      · right; omega

theorem jointsBroken_append (amax : List ℝ) (quintic : ℕ → ℕ → Outcome (ℝ × ℝ × Coeffs ℝ)) (l2 : List ℕ) : ∀ (l1 : List ℕ) (b : Bool),
    jointsBroken amax quintic (l1 ++ l2) b = (jointsBroken amax quintic l1 b).bind (jointsBroken amax quintic l2) := by
  intro l1
  induction l1 with
  | nil => intro b; rfl
  | cons j l1 ih =>
    intro b
    rw [List.cons_append, jointsBroken, jointsBroken]
    cases attempts (at' amax j) (quintic j) 5 1 b with
    | ub => rfl
    | throw _ => rfl
    | ok b' => exact ih b'

theorem jointsBroken_zero {amax : List ℝ} (quintic : ℕ → ℕ → Outcome (ℝ × ℝ × Coeffs ℝ)) (hq : ∀ j i, 1 ≤ i → ∃ q, quintic j i = .ok q)
    {n : ℕ} (h0 : at' amax n = 0) (b : Bool) : jointsBroken amax quintic (List.range (n + 1)) b = .ok true := by
  rw [List.range_succ, jointsBroken_append]
  obtain ⟨b', e⟩ := jointsBroken_total amax quintic hq (List.range n) b
  rw [e]
  show jointsBroken amax quintic [n] b' = _
  rw [jointsBroken, h0, attempts_zero (quintic n) (hq n) 5 1 b' (le_refl 1) (Or.inr ⟨by norm_num, by norm_num⟩)]
  rfl

theorem preStage_zero {n : ℕ} {amax : List ℝ} (h0 : at' amax n = 0) (w0 w1 : WayPoint) (hd : 0 < w0.duration)
    (hn : ∀ j < n + 1, 0 < at' w0.nominal j) {pull : ℝ} (hp : 0 < pull) : ∃ t, preStage (n + 1) amax w0 w1 pull = .ok (true, t) := by
  obtain ⟨t, h1, h2, h3⟩ := preIntersect_spec w0 hp (List.range (n + 1)) (w0.duration / 2) (by linarith)
    (fun j hj => hn j (List.mem_range.1 hj))
  refine ⟨t, ?_⟩
  unfold preStage
  rw [h1]
  simp only [Outcome.bind]
  rw [jointsBroken_zero _ (fun j i hi => preQuintic_total w0 w1 hp h2 h3 j i hi) h0]

theorem generate_zero {n : ℕ} {amax : List ℝ} (h0 : at' amax n = 0) {w0 wn : WayPoint} {middle : List WayPoint}
    (hd : 0 < w0.duration) (hn : ∀ j < n + 1, 0 < at' w0.nominal j) : generate (n + 1) amax w0 wn middle = .data 0 := by
  unfold generate
  simp only
  unfold pull
  rw [pullLoop_broken (fun p hp _ => preStage_zero h0 w0 _ hd hn hp) _ _ (by norm_num)]

theorem constrainLoop_zero (mode : Mode) {n : ℕ} {amax : List ℝ} (h0 : at' amax n = 0) : ∀ (passes : ℕ) (ws : List WayPoint),
    Ready (n + 1) ws → constrainLoop mode (n + 1) amax passes ws = none := by
  intro passes
  induction passes with
  | zero => intro ws _; rfl
  | succ passes ih =>
    intro ws hr
    obtain ⟨w0, middle, wn, rfl⟩ := exists_ends hr.two
    have hk := kept_configureEnds w0 wn middle
    have hr' := hr.kept hk
    obtain ⟨g1, g2⟩ := ready_generate hr'
    rw [constrainLoop, generateFor_eq, generate_zero h0 (g1 _ (by simp)) (g2 _ (by simp))]
    simp only
    refine ih _ ?_
    rw [configureEnds_eq, hk.length_eq]
    exact hr'.kept (kept_stretch hr' 0)

end Ecl.LinearTrajectory
