import Verif.Model.TensionTrajectory
import Verif.Lemmas.TensionNatural
import Verif.Lemmas.LinearTrajectory

/-! # Tension spline trajectories: the three loops -/
set_option autoImplicit false
set_option linter.unusedSimpArgs false

namespace Ecl.TensionTrajectory
open Ecl Ecl.Poly Ecl.Manip Ecl.TensionSpline
open Ecl.SmoothLinear (Within)
open Ecl.LinearTrajectory (Kept Ready kept_refl kept_trans kept_get stretchOne)
open Ecl.CubicSpline (at')

/-! ## Knots -/

theorem knotTimes_length : ∀ (ds : List ℝ) (t : ℝ), (knotTimes t ds).length = ds.length + 1 := by
  intro ds
  induction ds with
  | nil => intro t; rfl
  | cons d ds ih => intro t; simp [knotTimes, ih]

theorem knotTimes_at : ∀ (ds : List ℝ) (t : ℝ) (i : ℕ), i ≤ ds.length → at' (knotTimes t ds) i = t + (ds.take i).sum := by
  intro ds
  induction ds with
  | nil => intro t i hi; simp at hi; subst hi; simp [knotTimes, at']
  | cons d ds ih =>
    intro t i hi
    cases i with
    | zero => simp [knotTimes, at']
    | succ i =>
      have := ih (t + d) i (by simpa using hi)
      rw [List.take_succ_cons, List.sum_cons, ← add_assoc, ← this]
      rfl

theorem knotTimes_last : ∀ (ds : List ℝ) (t : ℝ), (knotTimes t ds).getLast? = some (t + ds.sum) := by
  intro ds
  induction ds with
  | nil => intro t; simp [knotTimes]
  | cons d ds ih =>
    intro t
    have := ih (t + d)
    rw [knotTimes, List.getLast?_cons, this, List.sum_cons, ← add_assoc]
    rfl

theorem knotTimes_lower : ∀ (ds : List ℝ) (t : ℝ), (∀ d ∈ ds, 0 < d) → ∀ x ∈ knotTimes t ds, t ≤ x := by
  intro ds
  induction ds with
  | nil => intro t _ x hx; simp [knotTimes] at hx; exact hx.ge
  | cons d ds ih =>
    intro t hd x hx
    rw [knotTimes, List.mem_cons] at hx
    rcases hx with rfl | hx
    · exact le_refl _
    · have := ih (t + d) (fun e he => hd e (by simp [he])) x hx
      linarith [hd d (by simp)]

theorem knotTimes_rising : ∀ (ds : List ℝ) (t : ℝ), (∀ d ∈ ds, 0 < d) → (knotTimes t ds).Pairwise (· < ·) := by
  intro ds
  induction ds with
  | nil => intro t _; simp [knotTimes]
  | cons d ds ih =>
    intro t hd
    have hd' : ∀ e ∈ ds, 0 < e := fun e he => hd e (by simp [he])
    rw [knotTimes, List.pairwise_cons]
    refine ⟨fun x hx => ?_, ih (t + d) hd'⟩
    have := knotTimes_lower ds (t + d) hd' x hx
    linarith [hd d (by simp)]

theorem durations_length (ws : List WayPoint) : (durations ws).length = ws.length - 1 := by simp [durations]

theorem durations_get (ws : List WayPoint) {i : ℕ} (hi : i + 1 < ws.length) : at' (durations ws) i = (wp ws i).duration := by
  have h1 : i < ws.length := by omega
  simp [durations, at', wp, List.getD_eq_getElem?_getD, List.getElem?_map, List.getElem?_dropLast, List.getElem?_eq_getElem h1]
  rw [if_pos (by omega)]
  rfl

theorem wp_get (ws : List WayPoint) {i : ℕ} (hi : i < ws.length) : ws[i]? = some (wp ws i) := by
  simp [wp, List.getD_eq_getElem?_getD, List.getElem?_eq_getElem hi]

theorem durations_pos {d : ℕ} {ws : List WayPoint} (h : Ready d ws) : ∀ x ∈ durations ws, 0 < x := by
  intro x hx
  obtain ⟨w, hw, rfl⟩ := List.mem_map.1 hx
  obtain ⟨i, hi, e⟩ := List.getElem_of_mem hw
  rw [List.length_dropLast] at hi
  refine (h.positive i w ?_ (by omega)).1
  rw [List.getElem_dropLast] at e
  rw [← e]; exact List.getElem?_eq_getElem (by omega)

theorem sum_take_le {l : List ℝ} (h : ∀ x ∈ l, 0 < x) (i : ℕ) : (l.take i).sum ≤ l.sum := by
  conv_rhs => rw [← List.take_append_drop i l, List.sum_append]
  have : 0 ≤ (l.drop i).sum := List.sum_nonneg fun x hx => (h x (List.mem_of_mem_drop hx)).le
  linarith

/-- The knots of the spline for the waypoints `ws`, started at `t`. -/
theorem knots_spec {d : ℕ} {ws : List WayPoint} (h : Ready d ws) (t : ℝ) :
    (knotTimes t (durations ws)).length = ws.length ∧ (knotTimes t (durations ws)).Pairwise (· < ·) ∧
    at' (knotTimes t (durations ws)) 0 = t ∧
    at' (knotTimes t (durations ws)) (ws.length - 1) = t + (durations ws).sum ∧
    (knotTimes t (durations ws)).getLastD 0 = t + (durations ws).sum := by
  have h2 := h.two
  refine ⟨?_, knotTimes_rising _ _ (durations_pos h), ?_, ?_, ?_⟩
  · rw [knotTimes_length, durations_length]; omega
  · rw [knotTimes_at _ _ 0 (by omega)]; simp
  · rw [knotTimes_at _ _ _ (by rw [durations_length]), ← durations_length, List.take_length]
  · rw [List.getLastD_eq_getLast?, knotTimes_last]; rfl

/-! ## Splines -/

/-- The spline of joint `j`. -/
def Splined (mode : Mode) (tau t : ℝ) (ws : List WayPoint) (j : ℕ) (s : Spline) : Prop :=
  ∃ z, Solved mode (knotTimes t (durations ws)) (jointValues ws j) tau (ws.length - 3) z s

theorem generate_spec (mode : Mode) {d : ℕ} {tau : ℝ} (t : ℝ) {ws : List WayPoint} (h : Ready d ws) (h3 : 3 ≤ ws.length)
    (ht : 0 < tau) : ∃ ss, generate mode d tau t ws = .ok ss ∧ List.Forall₂ (Splined mode tau t ws) (List.range d) ss := by
  obtain ⟨k1, k2, -⟩ := knots_spec h t
  unfold generate
  induction List.range d with
  | nil => exact ⟨[], rfl, List.Forall₂.nil⟩
  | cons j js ih =>
    obtain ⟨ss, e, hs⟩ := ih
    obtain ⟨z, s, hz⟩ := natural_solved mode (knotTimes t (durations ws)) (jointValues ws j) tau ht
      (by rw [k1]; simp [jointValues]) (m := ws.length - 3) (by rw [k1]; omega) k2
    refine ⟨s :: ss, ?_, List.Forall₂.cons ⟨z, hz⟩ hs⟩
    rw [splineLoop, hz.made]
    simp only [Outcome.bind]
    rw [e]

theorem made_get {α : Type} {d : ℕ} {P : ℕ → α → Prop} {l : List α} (h : List.Forall₂ P (List.range d) l) {j : ℕ} (hj : j < d) :
    ∃ s, l[j]? = some s ∧ P j s := by
  rw [List.forall₂_iff_get] at h
  obtain ⟨h1, h2⟩ := h
  rw [List.length_range] at h1
  have := h2 j (by simpa using hj) (by omega)
  refine ⟨l[j]'(by omega), List.getElem?_eq_getElem (by omega), ?_⟩
  simpa using this

theorem Arr_get_some {α : Type} (mode : Mode) {l : List α} {j : ℕ} {s : α} (h : l[j]? = some s) : Arr.get mode l j = .ok s := by
  obtain ⟨hj, rfl⟩ := List.getElem?_eq_some_iff.1 h
  cases mode <;> simp [Arr.get, Arr.rawGet, assertThrow, hj, Outcome.bind]

theorem Splined.domain {mode : Mode} {tau t : ℝ} {ws : List WayPoint} {j : ℕ} {s : Spline} (h : Splined mode tau t ws j s) :
    s.domain = knotTimes t (durations ws) := by
  obtain ⟨z, hz⟩ := h
  rw [hz.eq]

/-- Every call within the domain succeeds. -/
theorem Splined.call {mode : Mode} {d : ℕ} {tau t : ℝ} {ws : List WayPoint} {j : ℕ} {s : Spline} (h : Splined mode tau t ws j s)
    (hr : Ready d ws) (h3 : 3 ≤ ws.length) {x : ℝ} (h0 : t ≤ x) (h1 : x ≤ t + (durations ws).sum) :
    (∃ v, value mode s x = .ok v) ∧ (∃ v, slope mode s x = .ok v) ∧ ∃ v, curvature mode s x = .ok v := by
  obtain ⟨z, hz⟩ := h
  obtain ⟨-, -, k3, k4, -⟩ := knots_spec hr t
  have hx : x ∈ Set.Icc (at' (knotTimes t (durations ws)) 0) (at' (knotTimes t (durations ws)) (ws.length - 3 + 1 + 1)) := by
    rw [k3, show ws.length - 3 + 1 + 1 = ws.length - 1 by omega, k4]; exact ⟨h0, h1⟩
  exact ⟨⟨_, hz.value.everywhere hz.knots.rising hx⟩, ⟨_, hz.slope.everywhere hz.knots.rising hx⟩,
    ⟨_, hz.curvature.everywhere hz.knots.rising hx⟩⟩

/-! ## The first loop -/

theorem violating_total (mode : Mode) (amax : List ℝ) (ss : List Spline) (x : ℝ) : ∀ (js : List ℕ),
    (∀ j ∈ js, ∃ s v, ss[j]? = some s ∧ curvature mode s x = .ok v) → ∃ o, violating mode amax ss x js = .ok o := by
  intro js
  induction js with
  | nil => intro _; exact ⟨none, rfl⟩
  | cons j js ih =>
    intro h
    obtain ⟨s, v, h1, h2⟩ := h j (by simp)
    rw [violating, Arr_get_some mode h1]
    simp only [Outcome.bind]
    rw [h2]
    simp only
    split
    · exact ⟨_, rfl⟩
    · exact ih fun k hk => h k (by simp [hk])

theorem violating_none (mode : Mode) (amax : List ℝ) (ss : List Spline) (x : ℝ) : ∀ (js : List ℕ),
    (∀ j ∈ js, ∃ s v, ss[j]? = some s ∧ curvature mode s x = .ok v ∧ |v| ≤ at' amax j) →
    violating mode amax ss x js = .ok none := by
  intro js
  induction js with
  | nil => intro _; rfl
  | cons j js ih =>
    intro h
    obtain ⟨s, v, h1, h2, h3⟩ := h j (by simp)
    rw [violating, Arr_get_some mode h1]
    simp only [Outcome.bind]
    rw [h2]
    simp only
    rw [if_neg (not_lt.2 h3)]
    exact ih fun k hk => h k (by simp [hk])

theorem kept_stretchAt {d : ℕ} {ws : List WayPoint} (h : Ready d ws) {i : ℕ} (hi : i + 1 < ws.length) (j : ℕ) :
    List.Forall₂ Kept ws (stretchAt ws i j) := by
  unfold stretchAt
  simp only
  split
  · exact h.modify (by omega) (by norm_num)
  · exact h.modify hi (by norm_num)

theorem knotPass_spec (mode : Mode) (d : ℕ) (amax : List ℝ) (ss : List Spline) : ∀ (is : List (ℕ × ℝ)) (ws : List WayPoint) (kept : Bool),
    Ready d ws → (∀ p ∈ is, p.1 + 1 < ws.length ∧ ∃ o, violating mode amax ss p.2 (List.range d) = .ok o) →
    ∃ ws' b, knotPass mode d amax ss is ws kept = .ok (ws', b) ∧ List.Forall₂ Kept ws ws' := by
  intro is
  induction is with
  | nil => intro ws kept _ _; exact ⟨ws, kept, rfl, kept_refl ws⟩
  | cons p is ih =>
    intro ws kept hr h
    obtain ⟨i, x⟩ := p
    obtain ⟨h1, o, h2⟩ := h (i, x) (by simp)
    rw [knotPass, h2]
    simp only [Outcome.bind]
    cases o with
    | none => exact ih ws kept hr fun p hp => h p (by simp [hp])
    | some j =>
      have hk := kept_stretchAt hr h1 j
      obtain ⟨ws', b, e, hk'⟩ := ih (stretchAt ws i j) false (hr.kept hk) fun p hp => by
        rw [← hk.length_eq]; exact h p (by simp [hp])
      exact ⟨ws', b, e, kept_trans hk hk'⟩

theorem knotPass_kept (mode : Mode) (d : ℕ) (amax : List ℝ) (ss : List Spline) : ∀ (is : List (ℕ × ℝ)) (ws : List WayPoint) (kept : Bool),
    (∀ p ∈ is, violating mode amax ss p.2 (List.range d) = .ok none) →
    knotPass mode d amax ss is ws kept = .ok (ws, kept) := by
  intro is
  induction is with
  | nil => intro ws kept _; rfl
  | cons p is ih =>
    intro ws kept h
    obtain ⟨i, x⟩ := p
    rw [knotPass, h (i, x) (by simp)]
    exact ih ws kept fun p hp => h p (by simp [hp])

theorem innerKnots_mem {d : ℕ} {ws : List WayPoint} (hr : Ready d ws) (t : ℝ) {p : ℕ × ℝ}
    (hp : p ∈ innerKnots (knotTimes t (durations ws))) :
    1 ≤ p.1 ∧ p.1 + 1 < ws.length ∧ p.2 = at' (knotTimes t (durations ws)) p.1 := by
  obtain ⟨k, hk, rfl⟩ := List.mem_map.1 hp
  rw [List.mem_range, (knots_spec hr t).1] at hk
  exact ⟨by simp, by simp; omega, rfl⟩

theorem knotLoop_spec (mode : Mode) {d : ℕ} (hd : 0 < d) (amax : List ℝ) {tau : ℝ} (ht : 0 < tau) : ∀ (passes : ℕ) (ws : List WayPoint),
    Ready d ws → 3 ≤ ws.length →
    knotLoop mode d amax tau passes ws = none ∨
    ∃ ws', knotLoop mode d amax tau passes ws = some (.ok ws') ∧ List.Forall₂ Kept ws ws' := by
  intro passes
  induction passes with
  | zero => intro ws _ _; exact Or.inl rfl
  | succ passes ih =>
    intro ws hr h3
    obtain ⟨ss, e, hs⟩ := generate_spec mode 0 hr h3 ht
    obtain ⟨s0, g0, hs0⟩ := made_get hs hd
    obtain ⟨ws', b, e', hk⟩ := knotPass_spec mode d amax ss (innerKnots s0.domain) ws true hr (by
      intro p hp
      rw [hs0.domain] at hp
      obtain ⟨p1, p2, p3⟩ := innerKnots_mem hr 0 hp
      refine ⟨p2, violating_total mode amax ss _ _ fun j hj => ?_⟩
      obtain ⟨s, g, hsj⟩ := made_get hs (List.mem_range.1 hj)
      rw [p3, knotTimes_at _ _ _ (by rw [durations_length]; omega)]
      obtain ⟨-, -, v, hv⟩ := hsj.call hr h3 (x := 0 + ((durations ws).take p.1).sum)
        (by have : 0 ≤ ((durations ws).take p.1).sum := List.sum_nonneg fun x hx => (durations_pos hr x (List.mem_of_mem_take hx)).le
            linarith)
        (by linarith [sum_take_le (durations_pos hr) p.1])
      exact ⟨s, v, g, hv⟩)
    rw [knotLoop, e]
    simp only [Outcome.bind]
    rw [Arr_get_some mode g0]
    simp only
    rw [e']
    cases b with
    | true => exact Or.inr ⟨ws', rfl, hk⟩
    | false =>
      rcases ih ws' (hr.kept hk) (hk.length_eq ▸ h3) with h | ⟨ws2, h, hk2⟩
      · exact Or.inl h
      · exact Or.inr ⟨ws2, h, kept_trans hk hk2⟩

/-! ## Quintics -/

theorem quintics_spec (amax : List ℝ) (quintic : ℕ → Outcome (ℝ × ℝ × Coeffs ℝ)) : ∀ (js : List ℕ),
    (∀ j ∈ js, ∃ q, quintic j = .ok q) →
    ∃ r, quintics amax quintic js = .ok r ∧
      ∀ qs, r = some qs → List.Forall₂ (fun j c => ∃ lo hi, quintic j = .ok (lo, hi, c) ∧ Within (at' amax j) lo hi c) js qs := by
  intro js
  induction js with
  | nil => intro _; exact ⟨some [], rfl, fun qs h => by cases h; exact List.Forall₂.nil⟩
  | cons j js ih =>
    intro h
    obtain ⟨⟨lo, hi, c⟩, e⟩ := h j (by simp)
    obtain ⟨r, er, hr⟩ := ih fun k hk => h k (by simp [hk])
    rw [quintics, e]
    simp only [Outcome.bind]
    split
    next hw =>
      rw [er]
      refine ⟨_, rfl, fun qs hq => ?_⟩
      cases r with
      | none => cases hq
      | some cs => cases hq; exact List.Forall₂.cons ⟨lo, hi, e, hw⟩ (hr cs rfl)
    · exact ⟨none, rfl, fun qs hq => by cases hq⟩

theorem attempts_spec {attempt : ℕ → Outcome (ℝ × Option (List (Coeffs ℝ)))}
    (h : ∀ i, 1 ≤ i → i ≤ 5 → ∃ r, attempt i = .ok r) : ∀ (left i : ℕ), 1 ≤ i → left + i ≤ 6 →
    ∃ o, attempts attempt left i = .ok o ∧
      ∀ t qs, o = some (t, qs) → ∃ k, 1 ≤ k ∧ k ≤ 5 ∧ attempt k = .ok (t, some qs) := by
  intro left
  induction left with
  | zero => intro i _ _; exact ⟨none, rfl, fun t qs h => by cases h⟩
  | succ left ih =>
    intro i h1 h6
    obtain ⟨⟨t, r⟩, e⟩ := h i h1 (by omega)
    rw [attempts, e]
    simp only [Outcome.bind]
    cases r with
    | some qs => exact ⟨_, rfl, fun t' qs' h' => by cases h'; exact ⟨i, h1, by omega, e⟩⟩
    | none => exact ih (i + 1) (by omega) (by omega)

theorem wp_pos {d : ℕ} {ws : List WayPoint} (hr : Ready d ws) {i : ℕ} (hi : i + 1 < ws.length) : 0 < (wp ws i).duration :=
  (hr.positive i _ (wp_get ws (by omega)) hi).1

theorem first_le_sum {d : ℕ} {ws : List WayPoint} (hr : Ready d ws) {i : ℕ} (hi : i + 1 < ws.length) :
    (wp ws i).duration ≤ (durations ws).sum := by
  have hl : i < (durations ws).length := by rw [durations_length]; omega
  have := List.single_le_sum (fun x hx => (durations_pos hr x hx).le) _ (List.getElem_mem hl)
  rw [← CubicSpline.at_getElem hl, durations_get ws hi] at this
  exact this

/-- What the leading quintic of joint `j` is. -/
def Leading (mode : Mode) (amax : List ℝ) (tau t : ℝ) (ws : List WayPoint) (j : ℕ) (c : Coeffs ℝ) : Prop :=
  ∃ s y yd, Splined mode tau t ws j s ∧ value mode s (2 * t) = .ok y ∧ slope mode s (2 * t) = .ok yd ∧
    quinticInterpolation 0 (at' (wp ws 0).angles j) (at' (wp ws 0).rates j) 0 (2 * t) y yd 0 = .ok c ∧
    Within (at' amax j) 0 (2 * t) c

theorem forall₂_range_imp {α : Type} {d : ℕ} {P Q : ℕ → α → Prop} {l : List α} (h : List.Forall₂ P (List.range d) l)
    (hi : ∀ j c, j < d → P j c → Q j c) : List.Forall₂ Q (List.range d) l := by
  rw [List.forall₂_iff_get] at h ⊢
  refine ⟨h.1, fun i h1 h2 => ?_⟩
  have := h.2 i h1 h2
  refine hi _ _ ?_ this
  simp only [List.get_eq_getElem, List.getElem_range]
  simpa using h1

theorem leadingQuintic_total (mode : Mode) {d : ℕ} {tau t : ℝ} {ws : List WayPoint} (hr : Ready d ws) (h3 : 3 ≤ ws.length)
    (h0 : 0 < t) (h1 : t ≤ (wp ws 0).duration / 2) {ss : List Spline}
    (hs : List.Forall₂ (Splined mode tau t ws) (List.range d) ss) {j : ℕ} (hj : j < d) :
    ∃ s y yd c, ss[j]? = some s ∧ Splined mode tau t ws j s ∧ value mode s (2 * t) = .ok y ∧ slope mode s (2 * t) = .ok yd ∧
      quinticInterpolation 0 (at' (wp ws 0).angles j) (at' (wp ws 0).rates j) 0 (2 * t) y yd 0 = .ok c ∧
      leadingQuintic mode (wp ws 0) ss t j = .ok (0, 2 * t, c) := by
  obtain ⟨s, g, hsj⟩ := made_get hs hj
  have hsum := first_le_sum hr (i := 0) (by omega)
  obtain ⟨⟨y, hy⟩, ⟨yd, hyd⟩, -⟩ := hsj.call hr h3 (x := 2 * t) (by linarith) (by linarith)
  obtain ⟨c, hc, -⟩ := Props.C53_quintic 0 (at' (wp ws 0).angles j) (at' (wp ws 0).rates j) 0 (2 * t) y yd 0 (by linarith)
  refine ⟨s, y, yd, c, g, hsj, hy, hyd, hc, ?_⟩
  unfold leadingQuintic
  rw [Arr_get_some mode g]
  simp only [Outcome.bind]
  rw [hyd]
  simp only
  rw [hy]
  simp only
  rw [hc]

theorem leadingAttempt_spec (mode : Mode) {d : ℕ} (amax : List ℝ) {tau : ℝ} (ht : 0 < tau) {ws : List WayPoint} (hr : Ready d ws)
    (h3 : 3 ≤ ws.length) {i : ℕ} (h1 : 1 ≤ i) (h5 : i ≤ 5) :
    ∃ t r, leadingAttempt mode d amax tau ws i = .ok (t, r) ∧ 0 < t ∧ t ≤ (wp ws 0).duration / 2 ∧
      ∀ qs, r = some qs → List.Forall₂ (Leading mode amax tau t ws) (List.range d) qs := by
  have hp := wp_pos hr (i := 0) (by omega)
  have i1 : (1 : ℝ) ≤ i := by exact_mod_cast h1
  have i5 : (i : ℝ) ≤ 5 := by exact_mod_cast h5
  have t0 : 0 < (i : ℝ) * (wp ws 0).duration / 10 := by positivity
  have t1 : (i : ℝ) * (wp ws 0).duration / 10 ≤ (wp ws 0).duration / 2 := by nlinarith
  obtain ⟨ss, e, hs⟩ := generate_spec mode ((i : ℝ) * (wp ws 0).duration / 10) hr h3 ht
  obtain ⟨r, er, hrr⟩ := quintics_spec amax (leadingQuintic mode (wp ws 0) ss ((i : ℝ) * (wp ws 0).duration / 10)) (List.range d)
    (fun j hj => by
      obtain ⟨s, y, yd, c, -, -, -, -, -, h⟩ := leadingQuintic_total mode hr h3 t0 t1 hs (List.mem_range.1 hj)
      exact ⟨_, h⟩)
  refine ⟨_, r, ?_, t0, t1, fun qs hq => forall₂_range_imp (hrr qs hq) ?_⟩
  · unfold leadingAttempt
    simp only
    rw [e]
    simp only [Outcome.bind]
    rw [er]
  · rintro j c hj ⟨lo, hi, hc, hw⟩
    obtain ⟨s, y, yd, c', -, hsj, hy, hyd, hc', h⟩ := leadingQuintic_total mode hr h3 t0 t1 hs hj
    rw [h] at hc
    cases hc
    exact ⟨s, y, yd, hsj, hy, hyd, hc', hw⟩

theorem leadingLoop_spec (mode : Mode) {d : ℕ} (amax : List ℝ) {tau : ℝ} (ht : 0 < tau) : ∀ (passes : ℕ) (ws : List WayPoint),
    Ready d ws → 3 ≤ ws.length →
    leadingLoop mode d amax tau passes ws = none ∨
    ∃ ws' t qs, leadingLoop mode d amax tau passes ws = some (.ok (ws', t, qs)) ∧ List.Forall₂ Kept ws ws' ∧
      0 < t ∧ t ≤ (wp ws' 0).duration / 2 ∧ List.Forall₂ (Leading mode amax tau t ws') (List.range d) qs := by
  intro passes
  induction passes with
  | zero => intro ws _ _; exact Or.inl rfl
  | succ passes ih =>
    intro ws hr h3
    obtain ⟨o, e, ho⟩ := attempts_spec (attempt := leadingAttempt mode d amax tau ws)
      (fun i h1 h5 => by
        obtain ⟨t, r, h, -⟩ := leadingAttempt_spec mode amax ht hr h3 h1 h5
        exact ⟨_, h⟩) 5 1 (le_refl 1) (le_refl 6)
    rw [leadingLoop, e]
    cases o with
    | none =>
      have hk : List.Forall₂ Kept ws (ws.modify 0 (stretchOne (11 / 10))) := hr.modify (by omega) (by norm_num)
      rcases ih _ (hr.kept hk) (hk.length_eq ▸ h3) with h | ⟨ws', t, qs, h1, h2, h4⟩
      · exact Or.inl h
      · exact Or.inr ⟨ws', t, qs, h1, kept_trans hk h2, h4⟩
    | some p =>
      obtain ⟨t, qs⟩ := p
      obtain ⟨k, k1, k5, hk⟩ := ho t qs rfl
      obtain ⟨t', r, h, t0, t1, hl⟩ := leadingAttempt_spec mode amax ht hr h3 k1 k5
      rw [h] at hk
      cases hk
      exact Or.inr ⟨ws, t, qs, rfl, kept_refl ws, t0, t1, hl qs rfl⟩

/-- What the trailing quintic of joint `j` is; `start` is the time of the spline's first knot. -/
def Trailing (mode : Mode) (amax : List ℝ) (tau start tf t : ℝ) (ws : List WayPoint) (j : ℕ) (c : Coeffs ℝ) : Prop :=
  ∃ s y yd, Splined mode tau start ws j s ∧ value mode s (tf - t) = .ok y ∧ slope mode s (tf - t) = .ok yd ∧
    quinticInterpolation (tf - t) y yd 0 (tf + t) (at' (wp ws (ws.length - 1)).angles j) (at' (wp ws (ws.length - 1)).rates j) 0 = .ok c ∧
    Within (at' amax j) (tf - t) (tf + t) c

theorem trailingQuintic_total (mode : Mode) {d : ℕ} {tau start t : ℝ} {ws : List WayPoint} (hr : Ready d ws) (h3 : 3 ≤ ws.length)
    (h0 : 0 < t) (h1 : t ≤ (wp ws (ws.length - 2)).duration / 2) {ss : List Spline}
    (hs : List.Forall₂ (Splined mode tau start ws) (List.range d) ss) {j : ℕ} (hj : j < d) :
    ∃ s y yd c, ss[j]? = some s ∧ Splined mode tau start ws j s ∧ value mode s (start + (durations ws).sum - t) = .ok y ∧
      slope mode s (start + (durations ws).sum - t) = .ok yd ∧
      quinticInterpolation (start + (durations ws).sum - t) y yd 0 (start + (durations ws).sum + t)
        (at' (wp ws (ws.length - 1)).angles j) (at' (wp ws (ws.length - 1)).rates j) 0 = .ok c ∧
      trailingQuintic mode (wp ws (ws.length - 1)) ss (start + (durations ws).sum) t j =
        .ok (start + (durations ws).sum - t, start + (durations ws).sum + t, c) := by
  obtain ⟨s, g, hsj⟩ := made_get hs hj
  have hsum := first_le_sum hr (i := ws.length - 2) (by omega)
  have hp := wp_pos hr (i := ws.length - 2) (by omega)
  obtain ⟨⟨y, hy⟩, ⟨yd, hyd⟩, -⟩ := hsj.call hr h3 (x := start + (durations ws).sum - t) (by linarith) (by linarith)
  obtain ⟨c, hc, -⟩ := Props.C53_quintic (start + (durations ws).sum - t) y yd 0 (start + (durations ws).sum + t)
    (at' (wp ws (ws.length - 1)).angles j) (at' (wp ws (ws.length - 1)).rates j) 0 (by linarith)
  refine ⟨s, y, yd, c, g, hsj, hy, hyd, hc, ?_⟩
  unfold trailingQuintic
  rw [Arr_get_some mode g]
  simp only [Outcome.bind]
  rw [hyd]
  simp only
  rw [hy]
  simp only
  rw [hc]

theorem trailingAttempt_spec (mode : Mode) {d : ℕ} (hd : 0 < d) (amax : List ℝ) {tau start : ℝ} {ws : List WayPoint} (hr : Ready d ws)
    (h3 : 3 ≤ ws.length) {ss : List Spline} (hs : List.Forall₂ (Splined mode tau start ws) (List.range d) ss) {i : ℕ}
    (h1 : 1 ≤ i) (h5 : i ≤ 5) :
    ∃ t r, trailingAttempt mode d amax ws ss i = .ok (t, r) ∧ 0 < t ∧ t ≤ (wp ws (ws.length - 2)).duration / 2 ∧
      ∀ qs, r = some qs → List.Forall₂ (Trailing mode amax tau start (start + (durations ws).sum) t ws) (List.range d) qs := by
  have hp := wp_pos hr (i := ws.length - 2) (by omega)
  have i1 : (1 : ℝ) ≤ i := by exact_mod_cast h1
  have i5 : (i : ℝ) ≤ 5 := by exact_mod_cast h5
  have t0 : 0 < (i : ℝ) * (wp ws (ws.length - 2)).duration / 10 := by positivity
  have t1 : (i : ℝ) * (wp ws (ws.length - 2)).duration / 10 ≤ (wp ws (ws.length - 2)).duration / 2 := by nlinarith
  obtain ⟨s0, g0, hs0⟩ := made_get hs hd
  have etf : s0.domain.getLastD 0 = start + (durations ws).sum := by rw [hs0.domain]; exact (knots_spec hr start).2.2.2.2
  obtain ⟨r, er, hrr⟩ := quintics_spec amax (trailingQuintic mode (wp ws (ws.length - 1)) ss (start + (durations ws).sum)
    ((i : ℝ) * (wp ws (ws.length - 2)).duration / 10)) (List.range d)
    (fun j hj => by
      obtain ⟨s, y, yd, c, -, -, -, -, -, h⟩ := trailingQuintic_total mode hr h3 t0 t1 hs (List.mem_range.1 hj)
      exact ⟨_, h⟩)
  refine ⟨_, r, ?_, t0, t1, fun qs hq => forall₂_range_imp (hrr qs hq) ?_⟩
  · unfold trailingAttempt
    simp only
    rw [Arr_get_some mode g0]
    simp only [Outcome.bind]
    rw [etf, er]
  · rintro j c hj ⟨lo, hi, hc, hw⟩
    obtain ⟨s, y, yd, c', -, hsj, hy, hyd, hc', h⟩ := trailingQuintic_total mode hr h3 t0 t1 hs hj
    rw [h] at hc
    cases hc
    exact ⟨s, y, yd, hsj, hy, hyd, hc', hw⟩

/-- What the last loop ends with. -/
structure Finished (mode : Mode) (d : ℕ) (amax : List ℝ) (tau start t : ℝ) (qs : List (Coeffs ℝ)) (tr : Trajectory) : Prop where
  leading : tr.leading = qs
  first : tr.first = 2 * start
  middle : List.Forall₂ (Splined mode tau start tr.waypoints) (List.range d) tr.middle
  pos : 0 < t
  half : t ≤ (wp tr.waypoints (tr.waypoints.length - 2)).duration / 2
  second : tr.second = start + (durations tr.waypoints).sum - t
  duration : tr.duration = start + (durations tr.waypoints).sum + t
  trailing : List.Forall₂ (Trailing mode amax tau start (start + (durations tr.waypoints).sum) t tr.waypoints) (List.range d) tr.trailing

theorem trailingLoop_spec (mode : Mode) {d : ℕ} (hd : 0 < d) (amax : List ℝ) {tau : ℝ} (ht : 0 < tau) (start : ℝ) (qs : List (Coeffs ℝ)) :
    ∀ (passes : ℕ) (ws : List WayPoint), Ready d ws → 3 ≤ ws.length →
    trailingLoop mode d amax tau start qs passes ws = none ∨
    ∃ tr t, trailingLoop mode d amax tau start qs passes ws = some (.ok tr) ∧ List.Forall₂ Kept ws tr.waypoints ∧
      Finished mode d amax tau start t qs tr := by
  intro passes
  induction passes with
  | zero => intro ws _ _; exact Or.inl rfl
  | succ passes ih =>
    intro ws hr h3
    obtain ⟨ss, eg, hs⟩ := generate_spec mode start hr h3 ht
    obtain ⟨s0, g0, hs0⟩ := made_get hs hd
    have etf : s0.domain.getLastD 0 = start + (durations ws).sum := by rw [hs0.domain]; exact (knots_spec hr start).2.2.2.2
    obtain ⟨o, e, ho⟩ := attempts_spec (attempt := trailingAttempt mode d amax ws ss)
      (fun i h1 h5 => by
        obtain ⟨t, r, h, -⟩ := trailingAttempt_spec mode hd amax hr h3 hs h1 h5
        exact ⟨_, h⟩) 5 1 (le_refl 1) (le_refl 6)
    rw [trailingLoop, show 2 * start / 2 = start by ring, eg]
    simp only
    rw [e]
    cases o with
    | none =>
      have hk : List.Forall₂ Kept ws (ws.modify (ws.length - 2) (stretchOne (11 / 10))) := hr.modify (by omega) (by norm_num)
      rcases ih _ (hr.kept hk) (hk.length_eq ▸ h3) with h | ⟨tr, t, h1, h2, h4⟩
      · exact Or.inl h
      · exact Or.inr ⟨tr, t, h1, kept_trans hk h2, h4⟩
    | some p =>
      obtain ⟨t, ps⟩ := p
      obtain ⟨k, k1, k5, hk⟩ := ho t ps rfl
      obtain ⟨t', r, h, t0, t1, hl⟩ := trailingAttempt_spec mode hd amax hr h3 hs k1 k5
      rw [h] at hk
      cases hk
      right
      simp only
      rw [Arr_get_some mode g0]
      simp only [Outcome.bind]
      rw [etf]
      exact ⟨_, t, rfl, kept_refl ws, ⟨rfl, rfl, hs, t0, t1, rfl, rfl, hl ps rfl⟩⟩

end Ecl.TensionTrajectory
