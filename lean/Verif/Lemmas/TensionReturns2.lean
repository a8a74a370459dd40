import Verif.Lemmas.TensionKnots
import Verif.Lemmas.TensionTrajectoryEnds

/-! # Tension spline trajectories: when the whole call returns -/
set_option autoImplicit false

namespace Ecl.TensionTrajectory
open Ecl Ecl.Poly Ecl.Manip Ecl.TensionSpline Ecl.Spec
open Ecl.SmoothLinear (Within)
open Ecl.LinearTrajectory (Kept Ready kept_refl kept_trans kept_get stretchOne configureEnds)
open Ecl.CubicSpline (at')

/-! ## More passes -/

theorem knotLoop_more (mode : Mode) (d : ℕ) (amax : List ℝ) (tau : ℝ) {r : Outcome (List WayPoint)} : ∀ (n m : ℕ) (ws : List WayPoint), n ≤ m →
    knotLoop mode d amax tau n ws = some r → knotLoop mode d amax tau m ws = some r := by
  intro n
  induction n with
  | zero => intro m ws _ h; cases h
  | succ n ih =>
    intro m ws hm h
    obtain ⟨m, rfl⟩ : ∃ k, m = k + 1 := ⟨m - 1, by omega⟩
    rw [knotLoop] at h ⊢
    split at h
    · exact h
    · exact h
    · exact h
    · exact ih m _ (by omega) h

theorem leadingLoop_more (mode : Mode) (d : ℕ) (amax : List ℝ) (tau : ℝ) {r : Outcome (List WayPoint × ℝ × List (Coeffs ℝ))} :
    ∀ (n m : ℕ) (ws : List WayPoint), n ≤ m →
    leadingLoop mode d amax tau n ws = some r → leadingLoop mode d amax tau m ws = some r := by
  intro n
  induction n with
  | zero => intro m ws _ h; cases h
  | succ n ih =>
    intro m ws hm h
    obtain ⟨m, rfl⟩ : ∃ k, m = k + 1 := ⟨m - 1, by omega⟩
    rw [leadingLoop] at h ⊢
    split at h
    · exact h
    · exact h
    · exact h
    · exact ih m _ (by omega) h

theorem trailingLoop_more (mode : Mode) (d : ℕ) (amax : List ℝ) (tau start : ℝ) (qs : List (Coeffs ℝ)) {r : Outcome Trajectory} :
    ∀ (n m : ℕ) (ws : List WayPoint), n ≤ m →
    trailingLoop mode d amax tau start qs n ws = some r → trailingLoop mode d amax tau start qs m ws = some r := by
  intro n
  induction n with
  | zero => intro m ws _ h; cases h
  | succ n ih =>
    intro m ws hm h
    obtain ⟨m, rfl⟩ : ∃ k, m = k + 1 := ⟨m - 1, by omega⟩
    rw [trailingLoop] at h ⊢
    cases e : generate mode d tau (2 * start / 2) ws with
    | ub => rw [e] at h; exact h
    | throw _ => rw [e] at h; exact h
    | ok ss =>
      rw [e] at h
      simp only at h ⊢
      split at h
      · exact h
      · exact h
      · exact h
      · exact ih m _ (by omega) h

theorem build_more (mode : Mode) (d : ℕ) (amax : List ℝ) (tau : ℝ) {r : Outcome Trajectory} {n m : ℕ} {ws : List WayPoint} (hm : n ≤ m)
    (h : build mode d amax tau n ws = some r) : build mode d amax tau m ws = some r := by
  unfold build at h ⊢
  cases e : knotLoop mode d amax tau n ws with
  | none => rw [e] at h; cases h
  | some o =>
    rw [e] at h
    rw [knotLoop_more mode d amax tau n m ws hm e]
    cases o with
    | ub => exact h
    | throw _ => exact h
    | ok ws1 =>
      simp only at h ⊢
      cases e2 : leadingLoop mode d amax tau n (configureEnds ws1) with
      | none => rw [e2] at h; cases h
      | some o =>
        rw [e2] at h
        rw [leadingLoop_more mode d amax tau n m _ hm e2]
        cases o with
        | ub => exact h
        | throw _ => exact h
        | ok p =>
          obtain ⟨ws2, t, qs⟩ := p
          exact trailingLoop_more mode d amax tau t qs n m ws2 hm h

/-! ## Positive limits -/

theorem build_ends (mode : Mode) {d : ℕ} (hd : 0 < d) (amax : List ℝ) {tau A : ℝ} (ht : 0 < tau) (hA : 0 < A) (ha : ∀ j, j < d → A ≤ at' amax j)
    {ws : List WayPoint} (hr : Ready d ws) (h3 : 3 ≤ ws.length) : ∃ passes tr, build mode d amax tau passes ws = some (.ok tr) := by
  obtain ⟨h0, V, hh, he⟩ := exists_env hr
  obtain ⟨n1, r1, e1⟩ := knotLoop_ends mode hd amax ht hh hA h3 ha he
  obtain ⟨ws1, e1', k1⟩ : ∃ ws', knotLoop mode d amax tau n1 ws = some (.ok ws') ∧ List.Forall₂ Kept ws ws' := by
    rcases knotLoop_spec mode hd amax ht n1 ws hr h3 with h | h
    · rw [h] at e1; cases e1
    · exact h
  have he1 := he.kept k1
  obtain ⟨k2, -, -⟩ := configureEnds_kept (ws := ws1) he1.ready.two
  have he2 := he1.kept k2
  obtain ⟨n2, r2, e2⟩ := leadingLoop_ends mode amax ht hh hA h3 ha he2
  obtain ⟨ws2, t, qs, e2', k3, -⟩ : ∃ ws' t qs, leadingLoop mode d amax tau n2 (configureEnds ws1) = some (.ok (ws', t, qs)) ∧
      List.Forall₂ Kept (configureEnds ws1) ws' ∧ True := by
    rcases leadingLoop_spec mode amax ht n2 _ he2.ready (by rw [he2.length]; exact h3) with h | ⟨ws', t, qs, h, hk, -⟩
    · rw [h] at e2; cases e2
    · exact ⟨ws', t, qs, h, hk, trivial⟩
  have he3 := he2.kept k3
  obtain ⟨n3, r3, e3⟩ := trailingLoop_ends mode hd amax ht hh hA h3 ha t qs he3
  obtain ⟨tr, e3'⟩ : ∃ tr, trailingLoop mode d amax tau t qs n3 ws2 = some (.ok tr) := by
    rcases trailingLoop_spec mode hd amax ht t qs n3 ws2 he3.ready (by rw [he3.length]; exact h3) with h | ⟨tr, -, h, -⟩
    · rw [h] at e3; cases e3
    · exact ⟨tr, h⟩
  refine ⟨max n1 (max n2 n3), tr, ?_⟩
  unfold build
  rw [knotLoop_more mode d amax tau n1 _ ws (le_max_left _ _) e1']
  simp only
  rw [leadingLoop_more mode d amax tau n2 _ _ ((le_max_left _ _).trans (le_max_right _ _)) e2']
  exact trailingLoop_more mode d amax tau t qs n3 _ ws2 ((le_max_right _ _).trans (le_max_right _ _)) e3'

/-! ## Other limits -/

theorem violating_kept (mode : Mode) (amax : List ℝ) (ss : List Spline) (x : ℝ) : ∀ (js : List ℕ),
    violating mode amax ss x js = .ok none → ∀ j ∈ js, 0 ≤ at' amax j := by
  intro js
  induction js with
  | nil => intro _ j hj; cases hj
  | cons k js ih =>
    intro h
    rw [violating] at h
    cases e : Arr.get mode ss k with
    | ub => rw [e] at h; cases h
    | throw _ => rw [e] at h; cases h
    | ok s =>
      rw [e] at h
      simp only [Outcome.bind] at h
      cases e2 : curvature mode s x with
      | ub => rw [e2] at h; cases h
      | throw _ => rw [e2] at h; cases h
      | ok v =>
        rw [e2] at h
        simp only at h
        split at h
        next hv => cases h
        next hv =>
          intro j hj
          rcases List.mem_cons.1 hj with rfl | hj
          · exact (abs_nonneg v).trans (not_lt.1 hv)
          · exact ih h j hj

theorem knotPass_true (mode : Mode) (d : ℕ) (amax : List ℝ) (ss : List Spline) : ∀ (is : List (ℕ × ℝ)) (ws ws' : List WayPoint) (kept : Bool),
    knotPass mode d amax ss is ws kept = .ok (ws', true) → ∀ p ∈ is, violating mode amax ss p.2 (List.range d) = .ok none := by
  intro is
  induction is with
  | nil => intro ws ws' kept _ p hp; cases hp
  | cons p is ih =>
    intro ws ws' kept h
    obtain ⟨i, x⟩ := p
    rw [knotPass] at h
    cases e : violating mode amax ss x (List.range d) with
    | ub => rw [e] at h; cases h
    | throw _ => rw [e] at h; cases h
    | ok o =>
      rw [e] at h
      cases o with
      | none =>
        intro p hp
        rcases List.mem_cons.1 hp with rfl | hp
        · exact e
        · exact ih _ _ _ h p hp
      | some j =>
        have := knotPass_false mode d amax ss is _ _ _ h
        cases this

theorem knotLoop_nonneg (mode : Mode) {d : ℕ} (hd : 0 < d) (amax : List ℝ) {tau : ℝ} (ht : 0 < tau) {ws1 : List WayPoint} :
    ∀ (passes : ℕ) (ws : List WayPoint), Ready d ws → 3 ≤ ws.length → knotLoop mode d amax tau passes ws = some (.ok ws1) →
    ∀ j, j < d → 0 ≤ at' amax j := by
  intro passes
  induction passes with
  | zero => intro ws _ _ h; cases h
  | succ passes ih =>
    intro ws hr h3 h
    obtain ⟨ss, e, hs⟩ := generate_spec mode 0 hr h3 ht
    obtain ⟨s0, g0, hs0⟩ := made_get hs hd
    obtain ⟨ws', b, e', hk⟩ := knotPass_spec mode d amax ss (innerKnots s0.domain) ws true hr (by
      intro p hp
      rw [hs0.domain] at hp
      obtain ⟨p1, p2, p3⟩ := innerKnots_mem hr 0 hp
      refine ⟨p2, violating_total mode amax ss _ _ fun j hj => ?_⟩
      obtain ⟨s, g, z, hz⟩ := made_get hs (List.mem_range.1 hj)
      exact ⟨s, z p.1, g, by rw [p3]; exact hz.at_knot_curvature ht p.1 (by omega)⟩)
    rw [knotLoop, e] at h
    simp only [Outcome.bind] at h
    rw [Arr_get_some mode g0] at h
    simp only at h
    rw [e'] at h
    cases b with
    | true =>
      intro j hj
      have hm : (1, at' s0.domain 1) ∈ innerKnots s0.domain :=
        List.mem_map.2 ⟨0, by rw [List.mem_range, hs0.domain, (knots_spec hr 0).1]; omega, rfl⟩
      exact violating_kept mode amax ss _ _ (knotPass_true mode d amax ss _ _ _ _ e' _ hm) j (List.mem_range.2 hj)
    | false => exact ih ws' (hr.kept hk) (hk.length_eq ▸ h3) h

theorem build_positive (mode : Mode) {d : ℕ} (hd : 0 < d) (amax : List ℝ) {tau : ℝ} (ht : 0 < tau) {passes : ℕ} {tr : Trajectory}
    {ws : List WayPoint} (hr : Ready d ws) (h3 : 3 ≤ ws.length) (h : build mode d amax tau passes ws = some (.ok tr)) :
    ∀ j, j < d → 0 < at' amax j := by
  intro j hj
  unfold build at h
  rcases knotLoop_spec mode hd amax ht passes ws hr h3 with h' | ⟨ws1, h', k1⟩
  · rw [h'] at h; cases h
  have hn := knotLoop_nonneg mode hd amax ht passes ws hr h3 h' j hj
  rw [h'] at h
  simp only at h
  have hr1 := hr.kept k1
  obtain ⟨k2, -, -⟩ := configureEnds_kept hr1.two
  rcases leadingLoop_spec mode amax ht passes _ (hr1.kept k2) (by rw [← k2.length_eq, ← k1.length_eq]; exact h3) with
    h2 | ⟨ws2, t, qs, h2, -, -, -, hl⟩
  · rw [h2] at h; cases h
  obtain ⟨c, -, s, y, yd, -, -, -, -, hw⟩ := made_get hl hj
  have := lt_of_le_of_lt (abs_nonneg _) hw.1
  exact lt_of_le_of_ne hn (Ne.symm (abs_pos.1 this))

/-- The call comes down to the loops, for any number of passes. -/
theorem entered_all (mode : Mode) {d : ℕ} (amax : List ℝ) (tau : ℝ) {ws : List WayPoint} (hf : ∀ w ∈ ws, Fits d w)
    (hu : Usable 3 ws) (hm : mode = .release ∨ 5 ≤ ws.length) :
    ∃ ws', Ready d ws' ∧ List.Forall₂ Kept ws ws' ∧
      ∀ passes, tensionSplineInterpolation mode d amax tau passes ws = build mode d amax tau passes ws' := by
  obtain ⟨ws', hi, hr, hk⟩ := initialised mode (by norm_num) hf hu
  refine ⟨ws', hr, hk, fun passes => ?_⟩
  unfold tensionSplineInterpolation
  rcases hm with rfl | hm
  · obtain ⟨b, hb⟩ := validate_total (ws := ws) (k := 5) (by norm_num)
    rw [hb, hi]
    rfl
  · have hv : validate ws 5 = .ok true := (validate_iff (by norm_num)).2 ⟨hm, hu.2.1⟩
    rw [hv, hi]
    cases mode with
    | release => rfl
    | debug => simp [assertThrow, hm, Outcome.bind]

theorem exists_least (l : List ℝ) {d : ℕ} (hd : 0 < d) (h : ∀ j, j < d → 0 < at' l j) : ∃ A, 0 < A ∧ ∀ j, j < d → A ≤ at' l j := by
  obtain ⟨i, hi, hm⟩ := Finset.exists_min_image (Finset.range d) (fun j => at' l j) ⟨0, by simpa using hd⟩
  exact ⟨_, h i (by simpa using hi), fun j hj => hm j (by simpa using hj)⟩

end Ecl.TensionTrajectory
