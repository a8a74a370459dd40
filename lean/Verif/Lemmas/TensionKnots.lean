import Verif.Lemmas.TensionReturns

/-! # Tension spline trajectories: the loop over the inner knots ends -/
set_option autoImplicit false

namespace Ecl.TensionTrajectory
open Ecl Ecl.Poly Ecl.Manip Ecl.TensionSpline
open Ecl.LinearTrajectory (Kept Ready kept_refl kept_trans kept_get stretchOne)
open Ecl.CubicSpline (at')

/-! ## The joint that is picked -/

theorem violating_skip (mode : Mode) (amax : List ℝ) (ss : List Spline) (x : ℝ) (l2 : List ℕ) : ∀ (l1 : List ℕ),
    (∀ j ∈ l1, ∃ s v, ss[j]? = some s ∧ curvature mode s x = .ok v ∧ |v| ≤ at' amax j) →
    violating mode amax ss x (l1 ++ l2) = violating mode amax ss x l2 := by
  intro l1
  induction l1 with
  | nil => intro _; rfl
  | cons j l1 ih =>
    intro h
    obtain ⟨s, v, h1, h2, h3⟩ := h j (by simp)
    rw [List.cons_append, violating, Arr_get_some mode h1]
    simp only [Outcome.bind]
    rw [h2]
    simp only
    rw [if_neg (not_lt.2 h3)]
    exact ih fun k hk => h k (by simp [hk])

theorem violating_picks (mode : Mode) (amax : List ℝ) (ss : List Spline) (x : ℝ) {d j : ℕ} (hj : j < d) {s : Spline} {v : ℝ}
    (h1 : ss[j]? = some s) (h2 : curvature mode s x = .ok v) (h3 : at' amax j < |v|)
    (h : ∀ k, k < j → ∃ s v, ss[k]? = some s ∧ curvature mode s x = .ok v ∧ |v| ≤ at' amax k) :
    violating mode amax ss x (List.range d) = .ok (some j) := by
  obtain ⟨e, rfl⟩ : ∃ e, d = j + (e + 1) := ⟨d - j - 1, by omega⟩
  rw [List.range_add, violating_skip mode amax ss x _ _ (fun k hk => h k (List.mem_range.1 hk)), List.range_succ_eq_map, List.map_cons,
    Nat.add_zero, violating, Arr_get_some mode h1]
  simp only [Outcome.bind]
  rw [h2]
  simp only
  rw [if_pos h3]

theorem violating_some (mode : Mode) (amax : List ℝ) (ss : List Spline) (x : ℝ) (j : ℕ) : ∀ (js : List ℕ),
    violating mode amax ss x js = .ok (some j) → j ∈ js ∧ ∃ s v, Arr.get mode ss j = .ok s ∧ curvature mode s x = .ok v ∧ at' amax j < |v| := by
  intro js
  induction js with
  | nil => intro h; cases h
  | cons k js ih =>
    intro h
    rw [violating] at h
    cases e : Arr.get mode ss k with
    | ub => rw [e] at h; cases h
    | throw _ => rw [e] at h; cases h
    | ok s =>
      rw [e] at h
      simp only [Outcome.bind] at h
      cases e2 : curvature mode s x with
      | ub => rw [e2] at h; cases h
      | throw _ => rw [e2] at h; cases h
      | ok v =>
        rw [e2] at h
        simp only at h
        split at h
        next hv => cases h; exact ⟨by simp, s, v, e, e2, hv⟩
        next hv =>
          obtain ⟨m, r⟩ := ih h
          exact ⟨by simp [m], r⟩

/-! ## A pass that stretches -/

theorem knotPass_false (mode : Mode) (d : ℕ) (amax : List ℝ) (ss : List Spline) : ∀ (is : List (ℕ × ℝ)) (ws ws' : List WayPoint) (b : Bool),
    knotPass mode d amax ss is ws false = .ok (ws', b) → b = false := by
  intro is
  induction is with
  | nil => intro ws ws' b h; cases h; rfl
  | cons p is ih =>
    intro ws ws' b h
    obtain ⟨i, x⟩ := p
    rw [knotPass] at h
    cases e : violating mode amax ss x (List.range d) with
    | ub => rw [e] at h; cases h
    | throw _ => rw [e] at h; cases h
    | ok o =>
      rw [e] at h
      cases o with
      | none => exact ih _ _ _ h
      | some j => exact ih _ _ _ h

theorem stretchOne_duration (w : WayPoint) : (stretchOne (11 / 10) w).duration = w.duration * (11 / 10) := by
  simp only [stretchOne]

theorem modify_le {ws : List WayPoint} {k : ℕ} (hp : ∀ s, s + 1 < ws.length → 0 < (wp ws s).duration) {s : ℕ} (hs : s + 1 < ws.length) :
    (wp (ws.modify k (stretchOne (11 / 10))) s).duration ≤ 11 / 10 * (wp ws s).duration := by
  have := hp s hs
  by_cases e : k = s
  · subst e
    rw [wp_modify (by omega), stretchOne_duration]
    linarith
  · rw [wp_modify_ne (by omega) e]
    linarith

theorem stretchAt_le {d : ℕ} {ws : List WayPoint} (hr : Ready d ws) (i j : ℕ) {s : ℕ} (hs : s + 1 < ws.length) :
    (wp (stretchAt ws i j) s).duration ≤ 11 / 10 * (wp ws s).duration := by
  unfold stretchAt
  simp only
  split
  · exact modify_le (fun s hs => wp_pos hr hs) hs
  · exact modify_le (fun s hs => wp_pos hr hs) hs

theorem knotPass_hits (mode : Mode) (d : ℕ) (amax : List ℝ) (ss : List Spline) {i j : ℕ} {x : ℝ}
    (hv : violating mode amax ss x (List.range d) = .ok (some j)) : ∀ (is : List (ℕ × ℝ)) (ws : List WayPoint) (kept : Bool),
    Ready d ws → (∀ p ∈ is, p.1 + 1 < ws.length ∧ ∃ o, violating mode amax ss p.2 (List.range d) = .ok o) → (i, x) ∈ is →
    ∃ ws1 ws', knotPass mode d amax ss is ws kept = .ok (ws', false) ∧ List.Forall₂ Kept ws ws1 ∧
      (∀ s, s + 1 < ws.length → (wp ws1 s).duration ≤ (11 / 10) ^ is.length * (wp ws s).duration) ∧
      List.Forall₂ Kept (stretchAt ws1 i j) ws' := by
  intro is
  induction is with
  | nil => intro ws kept _ _ h; cases h
  | cons p is ih =>
    intro ws kept hr h hm
    by_cases e : p = (i, x)
    · subst e
      rw [knotPass, hv]
      simp only [Outcome.bind]
      have h1 := (h (i, x) (by simp)).1
      have hk := kept_stretchAt hr h1 j
      obtain ⟨ws', b, eq, hk'⟩ := knotPass_spec mode d amax ss is (stretchAt ws i j) false (hr.kept hk) (fun p hp => by
        rw [← hk.length_eq]; exact h p (by simp [hp]))
      have := knotPass_false mode d amax ss is _ _ _ eq
      subst this
      refine ⟨ws, ws', eq, kept_refl ws, fun s hs => ?_, hk'⟩
      have := wp_pos hr hs
      have p1 : (1 : ℝ) ≤ (11 / 10) ^ ((i, x) :: is).length := one_le_pow₀ (by norm_num)
      nlinarith
    · have hm' : (i, x) ∈ is := by
        rcases List.mem_cons.1 hm with h' | h'
        · exact absurd h'.symm e
        · exact h'
      obtain ⟨i', x'⟩ := p
      obtain ⟨h1, o, h2⟩ := h (i', x') (by simp)
      rw [knotPass, h2]
      simp only [Outcome.bind]
      have p1 : (0 : ℝ) < (11 / 10) ^ is.length := by positivity
      cases o with
      | none =>
        obtain ⟨ws1, ws', a1, a2, a3, a4⟩ := ih ws kept hr (fun p hp => h p (by simp [hp])) hm'
        refine ⟨ws1, ws', a1, a2, fun s hs => (a3 s hs).trans ?_, a4⟩
        have := wp_pos hr hs
        rw [List.length_cons, pow_succ]
        have := mul_pos p1 this
        nlinarith
      | some j' =>
        have hk := kept_stretchAt hr h1 j'
        obtain ⟨ws1, ws', a1, a2, a3, a4⟩ := ih (stretchAt ws i' j') false (hr.kept hk) (fun p hp => by
          rw [← hk.length_eq]; exact h p (by simp [hp])) hm'
        refine ⟨ws1, ws', a1, kept_trans hk a2, fun s hs => (a3 s (hk.length_eq ▸ hs)).trans ?_, a4⟩
        have := mul_le_mul_of_nonneg_left (stretchAt_le hr i' j' hs) p1.le
        rw [List.length_cons, pow_succ]
        linarith

/-! ## How far the durations are from their bound -/

noncomputable def lack (H h : ℝ) : ℝ := max 0 (Real.log (11 / 10 * H / h))

theorem lack_anti {H h h' : ℝ} (hH : 0 < H) (hh : 0 < h) (hle : h ≤ h') : lack H h' ≤ lack H h := by
  refine max_le_max (le_refl _) (Real.log_le_log (by have := lt_of_lt_of_le hh hle; positivity) ?_)
  exact div_le_div_of_nonneg_left (by positivity) hh hle

theorem lack_stretch {H h : ℝ} (hh : 0 < h) (hle : h ≤ H) : lack H (h * (11 / 10)) ≤ lack H h - Real.log (11 / 10) := by
  have hH : 0 < H := lt_of_lt_of_le hh hle
  have e : Real.log (11 / 10 * H / h) = Real.log (11 / 10) + Real.log (H / h) := by
    rw [mul_div_assoc, Real.log_mul (by norm_num) (by positivity)]
  have e' : 11 / 10 * H / (h * (11 / 10)) = H / h := by field_simp
  have n : 0 ≤ Real.log (H / h) := Real.log_nonneg ((one_le_div hh).2 hle)
  unfold lack
  rw [e', e]
  rw [max_eq_right n]
  have := le_max_right 0 (Real.log (11 / 10) + Real.log (H / h))
  linarith

noncomputable def potential (H : ℝ) (ws : List WayPoint) : ℝ := ∑ s ∈ Finset.range (ws.length - 1), lack H (wp ws s).duration

theorem potential_nonneg (H : ℝ) (ws : List WayPoint) : 0 ≤ potential H ws :=
  Finset.sum_nonneg fun _ _ => le_max_left _ _

theorem potential_kept {d : ℕ} {H : ℝ} (hH : 0 < H) {ws ws' : List WayPoint} (hr : Ready d ws) (h : List.Forall₂ Kept ws ws') :
    potential H ws' ≤ potential H ws := by
  unfold potential
  rw [← h.length_eq]
  refine Finset.sum_le_sum fun s hs => ?_
  rw [Finset.mem_range] at hs
  exact lack_anti hH (wp_pos hr (by omega)) (kept_wp h (by omega)).longer

theorem potential_modify {d : ℕ} {H : ℝ} {ws : List WayPoint} (hr : Ready d ws) {k : ℕ} (hk : k + 1 < ws.length)
    (hle : (wp ws k).duration ≤ H) : potential H (ws.modify k (stretchOne (11 / 10))) ≤ potential H ws - Real.log (11 / 10) := by
  unfold potential
  rw [List.length_modify]
  have hm : k ∈ Finset.range (ws.length - 1) := by rw [Finset.mem_range]; omega
  rw [← Finset.add_sum_erase _ _ hm, ← Finset.add_sum_erase _ (fun s => lack H (wp ws s).duration) hm]
  have e : ∑ s ∈ (Finset.range (ws.length - 1)).erase k, lack H (wp (ws.modify k (stretchOne (11 / 10))) s).duration =
      ∑ s ∈ (Finset.range (ws.length - 1)).erase k, lack H (wp ws s).duration := by
    refine Finset.sum_congr rfl fun s hs => ?_
    rw [Finset.mem_erase, Finset.mem_range] at hs
    rw [wp_modify_ne (by omega) (Ne.symm hs.1)]
  rw [e, wp_modify (by omega), stretchOne_duration]
  have := lack_stretch (wp_pos hr hk) hle
  linarith

/-! ## The loop -/

/-- If the steeper segment at knot `i` has at least the slope `g`, the one stretched is not longer than `2 * V / g`. -/
theorem stretchAt_short {d n : ℕ} {h0 V g : ℝ} {ws : List WayPoint} (he : Env d n h0 V ws) (hg : 0 < g) {i j : ℕ} (h1 : 1 ≤ i) (hi : i + 1 < n)
    (hs : g ≤ |(at' (wp ws i).angles j - at' (wp ws (i - 1)).angles j) / (wp ws (i - 1)).duration| ∨
      g ≤ |(at' (wp ws (i + 1)).angles j - at' (wp ws i).angles j) / (wp ws i).duration|) :
    ∃ k, k + 1 < n ∧ stretchAt ws i j = ws.modify k (stretchOne (11 / 10)) ∧ (wp ws k).duration ≤ 2 * V / g := by
  have hl := he.length
  have key : ∀ k, k + 1 < n → g ≤ |(at' (wp ws (k + 1)).angles j - at' (wp ws k).angles j) / (wp ws k).duration| →
      (wp ws k).duration ≤ 2 * V / g := by
    intro k hk h
    have hp := wp_pos he.ready (i := k) (by omega)
    have a := he.angles k (by omega) j
    have b := he.angles (k + 1) (by omega) j
    have c := abs_sub (at' (wp ws (k + 1)).angles j) (at' (wp ws k).angles j)
    rw [abs_div, abs_of_pos hp, le_div_iff₀ hp] at h
    rw [le_div_iff₀ hg]
    linarith
  have e : i - 1 + 1 = i := by omega
  unfold stretchAt
  simp only
  split
  next h =>
    refine ⟨i - 1, by omega, rfl, key (i - 1) (by omega) ?_⟩
    rw [e]
    rcases hs with h' | h'
    · exact h'
    · exact h'.trans h.le
  next h =>
    refine ⟨i, hi, rfl, key i hi ?_⟩
    rcases hs with h' | h'
    · exact h'.trans (not_lt.1 h)
    · exact h'

/-- A pass that finds a limit broken brings the potential down. -/
theorem pass_lowers (mode : Mode) {d n : ℕ} (hd : 0 < d) (amax : List ℝ) {tau h0 V A : ℝ} (ht : 0 < tau) (hh : 0 < h0) (hA : 0 < A)
    (h3 : 3 ≤ n) (ha : ∀ j, j < d → A ≤ at' amax j) : ∃ H, 0 < H ∧ ∀ ws, Env d n h0 V ws →
    (∃ ws', knotLoop mode d amax tau 1 ws = some (.ok ws')) ∨
    ∃ ws', (∀ passes, knotLoop mode d amax tau (passes + 1) ws = knotLoop mode d amax tau passes ws') ∧ Env d n h0 V ws' ∧
      potential H ws' ≤ potential H ws - Real.log (11 / 10) := by
  obtain ⟨c, hc, HM⟩ := margin ht hh
  set F : ℝ := (11 / 10) ^ (n - 2) with hF
  have Fp : 0 < F := by positivity
  set g : ℝ := c * A / (tau * tau * F) with hg
  have gp : 0 < g := by positivity
  refine ⟨max 1 (2 * V / g), lt_of_lt_of_le one_pos (le_max_left _ _), fun ws he => ?_⟩
  have Hp : 0 < max 1 (2 * V / g) := lt_of_lt_of_le one_pos (le_max_left _ _)
  have hr := he.ready
  have hl := he.length
  obtain ⟨ss, e, hs⟩ := generate_spec mode 0 hr (by omega) ht
  obtain ⟨s0, g0, hs0⟩ := made_get hs hd
  have hlen : (innerKnots s0.domain).length = n - 2 := by
    simp only [innerKnots, List.length_map, List.length_range, hs0.domain, (knots_spec hr 0).1, hl]
  have mem : ∀ i, 1 ≤ i → i + 1 < n → (i, at' (knotTimes 0 (durations ws)) i) ∈ innerKnots s0.domain := by
    intro i h1 h2
    refine List.mem_map.2 ⟨i - 1, ?_, ?_⟩
    · rw [List.mem_range, hs0.domain, (knots_spec hr 0).1]; omega
    · rw [hs0.domain, show i - 1 + 1 = i by omega]
  -- the second derivatives at the knots
  have hz : ∀ j, j < d → ∃ s z, ss[j]? = some s ∧ Solved mode (knotTimes 0 (durations ws)) (jointValues ws j) tau (ws.length - 3) z s ∧
      ∀ i, i < n → curvature mode s (at' (knotTimes 0 (durations ws)) i) = .ok (z i) := by
    intro j hj
    obtain ⟨s, gs, z, hz⟩ := made_get hs hj
    exact ⟨s, z, gs, hz, fun i hi => hz.at_knot_curvature ht i (by omega)⟩
  have tot : ∀ p ∈ innerKnots s0.domain, p.1 + 1 < ws.length ∧ ∃ o, violating mode amax ss p.2 (List.range d) = .ok o := by
    intro p hp
    rw [hs0.domain] at hp
    obtain ⟨p1, p2, p3⟩ := innerKnots_mem hr 0 hp
    refine ⟨p2, violating_total mode amax ss _ _ fun j hj => ?_⟩
    obtain ⟨s, z, g1, -, hcv⟩ := hz j (List.mem_range.1 hj)
    exact ⟨s, z p.1, g1, by rw [p3]; exact hcv p.1 (by omega)⟩
  by_cases hbad : ∃ p ∈ innerKnots s0.domain, ∃ j, violating mode amax ss p.2 (List.range d) = .ok (some j)
  · right
    -- the first joint above its limit anywhere
    have hex : ∃ j, j < d ∧ ∃ i, 1 ≤ i ∧ i + 1 < n ∧ ∃ s v, ss[j]? = some s ∧
        curvature mode s (at' (knotTimes 0 (durations ws)) i) = .ok v ∧ at' amax j < |v| := by
      obtain ⟨p, hp, j, hv⟩ := hbad
      rw [hs0.domain] at hp
      obtain ⟨p1, p2, p3⟩ := innerKnots_mem hr 0 hp
      obtain ⟨hj, s, v, g1, g2, g3⟩ := violating_some mode amax ss _ j _ hv
      rw [List.mem_range] at hj
      obtain ⟨s', z, g', -, -⟩ := hz j hj
      rw [Arr_get_some mode g'] at g1
      cases g1
      exact ⟨j, hj, p.1, p1, by omega, s, v, g', by rw [← p3]; exact g2, g3⟩
    classical
    obtain ⟨hjd, i0, hi0, hi0', s1, v1, gs1, hv1, hlim⟩ := Nat.find_spec hex
    have hmin := fun k (hk : k < Nat.find hex) => Nat.find_min hex hk
    set j := Nat.find hex
    obtain ⟨s, z, gs, hsol, hcv⟩ := hz j hjd
    rw [gs] at gs1
    cases gs1
    rw [hcv i0 (by omega)] at hv1
    cases hv1
    obtain ⟨q, hq, hpeak⟩ := exists_peak z (ws.length - 3) hsol.first hsol.last
    have hzq : at' amax j < |z (q + 1)| := lt_of_lt_of_le hlim (hpeak i0 (by omega))
    have hpk := hsol.peak ht (c := c) (fun i hi => by
      have := HM (wp ws i).duration (he.long i (by omega))
      unfold betaAt aAt
      rw [hAt_knots hr 0 (by omega)]
      exact this) hq hpeak
    have hviol : violating mode amax ss (at' (knotTimes 0 (durations ws)) (q + 1)) (List.range d) = .ok (some j) := by
      refine violating_picks mode amax ss _ hjd gs (hcv (q + 1) (by omega)) hzq fun k hk => ?_
      obtain ⟨s', z', g', -, hcv'⟩ := hz k (by omega)
      refine ⟨s', z' (q + 1), g', hcv' (q + 1) (by omega), ?_⟩
      by_contra hcon
      exact hmin k hk ⟨by omega, q + 1, by omega, by omega, s', z' (q + 1), g', hcv' (q + 1) (by omega), not_le.1 hcon⟩
    obtain ⟨ws1, ws', a1, a2, a3, a4⟩ := knotPass_hits mode d amax ss hviol (innerKnots s0.domain) ws true hr tot
      (mem (q + 1) (by omega) (by omega))
    have he1 := he.kept a2
    -- the steeper slope
    have hslope : ∀ k, k + 1 < n → gammaAt tau (at' (knotTimes 0 (durations ws))) (at' (jointValues ws j)) k =
        tau * tau * ((at' (wp ws (k + 1)).angles j - at' (wp ws k).angles j) / (wp ws k).duration) := by
      intro k hk
      unfold gammaAt
      rw [hAt_knots hr 0 (by omega), jointValues_at ws j (by omega), jointValues_at ws j (by omega), mul_div_assoc]
    have hscale : ∀ k, k + 1 < n → |(at' (wp ws (k + 1)).angles j - at' (wp ws k).angles j) / (wp ws k).duration| ≤
        F * |(at' (wp ws1 (k + 1)).angles j - at' (wp ws1 k).angles j) / (wp ws1 k).duration| := by
      intro k hk
      have w := wp_pos hr (i := k) (by omega)
      have w1 := wp_pos he1.ready (i := k) (by have := he1.length; omega)
      have hle := a3 k (by omega)
      rw [hlen] at hle
      rw [(kept_wp a2 (i := k) (by omega)).angles, (kept_wp a2 (i := k + 1) (by omega)).angles, abs_div, abs_div, abs_of_pos w,
        abs_of_pos w1, ← mul_div_assoc, div_le_div_iff₀ w w1]
      have := mul_le_mul_of_nonneg_left hle (abs_nonneg (at' (wp ws (k + 1)).angles j - at' (wp ws k).angles j))
      linarith
    have hst : g ≤ |(at' (wp ws1 (q + 1)).angles j - at' (wp ws1 q).angles j) / (wp ws1 q).duration| ∨
        g ≤ |(at' (wp ws1 (q + 1 + 1)).angles j - at' (wp ws1 (q + 1)).angles j) / (wp ws1 (q + 1)).duration| := by
      by_contra hcon
      rw [not_or, not_le, not_le] at hcon
      have b1 := (hscale q (by omega)).trans (mul_le_mul_of_nonneg_left hcon.1.le Fp.le)
      have b2 := (hscale (q + 1) (by omega)).trans (mul_le_mul_of_nonneg_left hcon.2.le Fp.le)
      rw [hslope q (by omega), hslope (q + 1) (by omega), ← mul_sub, abs_mul, abs_of_pos (mul_pos ht ht)] at hpk
      have b3 := (abs_sub ((at' (wp ws (q + 1 + 1)).angles j - at' (wp ws (q + 1)).angles j) / (wp ws (q + 1)).duration)
        ((at' (wp ws (q + 1)).angles j - at' (wp ws q).angles j) / (wp ws q).duration))
      have b4 : 2 * c * |z (q + 1)| ≤ tau * tau * (2 * (F * g)) :=
        hpk.trans (mul_le_mul_of_nonneg_left (by linarith) (mul_pos ht ht).le)
      have b5 : tau * tau * (2 * (F * g)) = 2 * c * A := by rw [hg]; field_simp
      rw [b5] at b4
      have b6 := ha j hjd
      have : 2 * c * A < 2 * c * |z (q + 1)| := mul_lt_mul_of_pos_left (by linarith) (by linarith)
      linarith
    obtain ⟨k, hk, ek, hkH⟩ := stretchAt_short he1 gp (i := q + 1) (by omega) (by omega) (j := j) (by simpa using hst)
    rw [ek] at a4
    have hkm : List.Forall₂ Kept ws1 (ws1.modify k (stretchOne (11 / 10))) :=
      he1.ready.modify (by have := he1.length; omega) (by norm_num)
    refine ⟨ws', fun passes => ?_, (he1.kept hkm).kept a4, ?_⟩
    · rw [knotLoop, e]
      simp only [Outcome.bind]
      rw [Arr_get_some mode g0]
      simp only
      rw [a1]
    · have c1 := potential_kept Hp hr a2
      have c2 := potential_modify he1.ready (H := max 1 (2 * V / g)) (k := k) (by have := he1.length; omega) (hkH.trans (le_max_right _ _))
      have c3 := potential_kept Hp (he1.kept hkm).ready a4
      linarith
  · left
    have hnone : ∀ p ∈ innerKnots s0.domain, violating mode amax ss p.2 (List.range d) = .ok none := by
      intro p hp
      obtain ⟨-, o, ho⟩ := tot p hp
      cases o with
      | none => exact ho
      | some j => exact absurd ⟨p, hp, j, ho⟩ hbad
    refine ⟨ws, ?_⟩
    rw [knotLoop, e]
    simp only [Outcome.bind]
    rw [Arr_get_some mode g0]
    simp only
    rw [knotPass_kept mode d amax ss _ ws true hnone]

theorem knotLoop_ends (mode : Mode) {d n : ℕ} (hd : 0 < d) (amax : List ℝ) {tau h0 V A : ℝ} (ht : 0 < tau) (hh : 0 < h0) (hA : 0 < A)
    (h3 : 3 ≤ n) (ha : ∀ j, j < d → A ≤ at' amax j) {ws : List WayPoint} (he : Env d n h0 V ws) :
    ∃ passes r, knotLoop mode d amax tau passes ws = some r := by
  obtain ⟨H, -, HP⟩ := pass_lowers mode (V := V) hd amax ht hh hA h3 ha
  have lp : 0 < Real.log (11 / 10) := Real.log_pos (by norm_num)
  have main : ∀ (k : ℕ) (ws : List WayPoint), Env d n h0 V ws → potential H ws < k * Real.log (11 / 10) →
      ∃ r, knotLoop mode d amax tau (k + 1) ws = some r := by
    intro k
    induction k with
    | zero =>
      intro ws he h
      have := potential_nonneg H ws
      simp at h
      linarith
    | succ k ih =>
      intro ws he h
      rcases HP ws he with ⟨ws', e⟩ | ⟨ws', e, he', hp⟩
      · rw [knotLoop] at e ⊢
        split at e
        · exact ⟨_, rfl⟩
        · exact ⟨_, rfl⟩
        · exact ⟨_, rfl⟩
        · cases e
      · rw [e]
        refine ih ws' he' ?_
        push_cast at h
        linarith
  obtain ⟨k, hk⟩ := exists_nat_gt (potential H ws / Real.log (11 / 10))
  rw [div_lt_iff₀ lp] at hk
  obtain ⟨r, hr⟩ := main k ws he hk
  exact ⟨_, r, hr⟩

end Ecl.TensionTrajectory
