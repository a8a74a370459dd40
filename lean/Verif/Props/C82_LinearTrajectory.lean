import Verif.Lemmas.LinearTrajectoryEnds

/-! # C82: smoothed linear trajectories -/
set_option autoImplicit false
set_option linter.unusedSimpArgs false

namespace Ecl.Props
open Ecl Ecl.Manip Ecl.Spec Ecl.LinearTrajectory
open Ecl.CubicSpline (at')

/-- **C82.** If the interpolation returns, every joint's trajectory is twice continuously differentiable
from time 0 to the duration, its acceleration never exceeds the joint's limit, it starts at the first
waypoint with the rate configured there, ends at the last waypoint, and has no acceleration at either
end.  The waypoints keep their angles and their durations only grow. -/
theorem C82_smooth (mode : Mode) (d passes : ℕ) (amax : List ℝ) (ws : List WayPoint) (tr : Trajectory)
    (hf : ∀ w ∈ ws, Fits d w) (h : linearSplineInterpolation mode d amax passes ws = some (.ok tr)) :
    0 < tr.duration ∧ Stretched ws tr.waypoints ∧
    ∀ j < d, ∀ (first last : WayPoint) (a b limit : ℝ), ws.head? = some first → ws.getLast? = some last →
      first.angles[j]? = some a → last.angles[j]? = some b → amax[j]? = some limit →
      TwiceSmooth (tr.value mode j) (tr.rate mode j) (tr.acceleration mode j) 0 tr.duration ∧
      (∀ t ∈ Set.Icc 0 tr.duration, ∃ v, tr.acceleration mode j t = .ok v ∧ |v| ≤ |limit|) ∧
      tr.value mode j 0 = .ok a ∧ tr.value mode j tr.duration = .ok b ∧
      tr.rate mode j 0 = .ok (configuredRate first j) ∧
      tr.acceleration mode j 0 = .ok 0 ∧ tr.acceleration mode j tr.duration = .ok 0 := by
  obtain ⟨w0, middle, wn, l, xs, pre, mid, u, pull, post, s, rest, rfl, rfl, hk, L, c0, cn⟩ := returned hf h
  have hd : 0 < d := by
    have := L.made.length_eq
    simp at this
    omega
  obtain ⟨s0, -, hs0⟩ := made_get L.made hd
  refine ⟨(L.joint mode hs0).pos, ⟨hk.length_eq.symm, ?_⟩, ?_⟩
  · intro i w hw
    obtain ⟨hi, rfl⟩ := List.getElem?_eq_some_iff.1 hw
    have hi' : i < (w0 :: middle ++ [wn]).length := hk.length_eq ▸ hi
    obtain ⟨w', e, k⟩ := kept_get hk i _ (List.getElem?_eq_getElem hi')
    rw [hw] at e
    cases e
    exact ⟨_, List.getElem?_eq_getElem hi', k.angles, k.longer⟩
  · intro j hj first last a b limit hfirst hlast ha hb hlim
    obtain ⟨sj, hsj, hc⟩ := made_get L.made hj
    have J := L.joint mode hc
    have hin : ∀ (f : SmoothLinear.Spline → ℝ → Outcome ℝ), ∀ x ∈ Set.Icc (0 : ℝ) (u + (pull * 2 - post)),
        evaluate f mode ⟨w0 :: middle ++ [wn], s :: rest, u + (pull * 2 - post)⟩ j x = f sj x :=
      fun f x hx => evaluate_inside f mode _ j sj _ x hsj J.last hx.1 hx.2
    have m0 : (0 : ℝ) ∈ Set.Icc (0 : ℝ) (u + (pull * 2 - post)) := ⟨le_refl _, J.pos.le⟩
    have mT : u + (pull * 2 - post) ∈ Set.Icc (0 : ℝ) (u + (pull * 2 - post)) := ⟨J.pos.le, le_refl _⟩
    have k0 : Kept first w0 := by
      obtain ⟨v, e, k⟩ := kept_get hk 0 w0 rfl
      rw [← List.head?_eq_getElem?, hfirst] at e
      cases e; exact k
    have kn : Kept last wn := by
      obtain ⟨v, e, k⟩ := kept_get hk (ws.length - 1) wn (by
        rw [hk.length_eq, ← List.getLast?_eq_getElem?, List.getLast?_concat])
      rw [← List.getLast?_eq_getElem?, hlast] at e
      cases e; exact k
    have ea : at' w0.angles j = a := by rw [k0.angles]; exact at_of_getElem? ha
    have eb : at' wn.angles j = b := by rw [kn.angles]; exact at_of_getElem? hb
    have el : at' amax j = limit := at_of_getElem? hlim
    refine ⟨smooth_congr J.smooth fun x hx => ⟨hin _ x hx, hin _ x hx, hin _ x hx⟩, ?_, ?_, ?_, ?_, ?_, ?_⟩
    · intro t ht
      obtain ⟨v, hv, hb'⟩ := J.bound t ht
      exact ⟨v, (hin _ t ht).trans hv, el ▸ hb'⟩
    · rw [← ea]; exact (hin _ 0 m0).trans J.start
    · rw [← eb]; exact (hin _ _ mT).trans J.stop
    · rw [← rate_kept k0 c0]; exact (hin _ 0 m0).trans J.start_rate
    · exact (hin _ 0 m0).trans J.start_acc
    · exact (hin _ _ mT).trans J.stop_acc

/-- **C82.** The rate at the end has the direction of the rate configured for the last waypoint, but is
at most half of it. -/
theorem C82_end_rate (mode : Mode) (d passes : ℕ) (amax : List ℝ) (ws : List WayPoint) (tr : Trajectory)
    (hf : ∀ w ∈ ws, Fits d w) (h : linearSplineInterpolation mode d amax passes ws = some (.ok tr))
    (j : ℕ) (hj : j < d) (last : WayPoint) (hlast : ws.getLast? = some last) :
    ∃ c : ℝ, 0 < c ∧ c ≤ 1 / 2 ∧ tr.rate mode j tr.duration = .ok (configuredRate last j * c) := by
  obtain ⟨w0, middle, wn, l, xs, pre, mid, u, pull, post, s, rest, rfl, rfl, hk, L, c0, cn⟩ := returned hf h
  obtain ⟨sj, hsj, hc⟩ := made_get L.made hj
  have J := L.joint mode hc
  have kn : Kept last wn := by
    obtain ⟨v, e, k⟩ := kept_get hk (ws.length - 1) wn (by
      rw [hk.length_eq, ← List.getLast?_eq_getElem?, List.getLast?_concat])
    rw [← List.getLast?_eq_getElem?, hlast] at e
    cases e; exact k
  have p1 := L.post_lt
  have p2 := L.pull_pos
  have p3 := L.post_nonneg
  have p4 : 0 < pull * 2 - post := by linarith
  refine ⟨(pull - post) / (pull * 2 - post), div_pos (by linarith) p4, ?_, ?_⟩
  · rw [div_le_div_iff₀ p4 (by norm_num)]; linarith
  · rw [← rate_kept kn cn]
    exact (evaluate_inside _ mode _ j sj _ _ hsj J.last J.pos.le (le_refl _)).trans J.stop_rate

/-- **C82.** So a trajectory whose last waypoint asks for rest does end at rest. -/
theorem C82_rest_partial (mode : Mode) (d passes : ℕ) (amax : List ℝ) (ws : List WayPoint) (tr : Trajectory)
    (hf : ∀ w ∈ ws, Fits d w) (h : linearSplineInterpolation mode d amax passes ws = some (.ok tr))
    (j : ℕ) (hj : j < d) (last : WayPoint) (hlast : ws.getLast? = some last) (h0 : configuredRate last j = 0) :
    tr.rate mode j tr.duration = .ok (configuredRate last j) := by
  obtain ⟨c, -, -, e⟩ := C82_end_rate mode d passes amax ws tr hf h j hj last hlast
  rw [e, h0, zero_mul]

/-- **C82.** And one whose last waypoint asks for anything else never ends as asked. -/
theorem C82_fails_end_rate (mode : Mode) (d passes : ℕ) (amax : List ℝ) (ws : List WayPoint) (tr : Trajectory)
    (hf : ∀ w ∈ ws, Fits d w) (h : linearSplineInterpolation mode d amax passes ws = some (.ok tr))
    (j : ℕ) (hj : j < d) (last : WayPoint) (hlast : ws.getLast? = some last) (h0 : configuredRate last j ≠ 0) :
    tr.rate mode j tr.duration ≠ .ok (configuredRate last j) := by
  obtain ⟨c, hc0, hc, e⟩ := C82_end_rate mode d passes amax ws tr hf h j hj last hlast
  rw [e]
  intro he
  have := Outcome.ok.inj he
  have h1 : configuredRate last j * (c - 1) = 0 := by linear_combination this
  rcases mul_eq_zero.1 h1 with h2 | h2
  · exact h0 h2
  · linarith

/-- **C82.** Up to a tenth of a millisecond after the end the trajectory stays where it ended; any other
time outside is refused in a debug build, and so is a joint it does not have. -/
theorem C82_outside (mode : Mode) (d passes : ℕ) (amax : List ℝ) (ws : List WayPoint) (tr : Trajectory)
    (hf : ∀ w ∈ ws, Fits d w) (h : linearSplineInterpolation mode d amax passes ws = some (.ok tr)) (j : ℕ) (t : ℝ) :
    (j < d → tr.duration < t → t ≤ tr.duration + 1 / 10000 →
      tr.value mode j t = tr.value mode j tr.duration ∧ tr.rate mode j t = tr.rate mode j tr.duration ∧
      tr.acceleration mode j t = tr.acceleration mode j tr.duration) ∧
    (j < d → t < 0 ∨ tr.duration + 1 / 10000 < t →
      tr.value .debug j t = .throw .outOfRange ∧ tr.rate .debug j t = .throw .outOfRange ∧
      tr.acceleration .debug j t = .throw .outOfRange) ∧
    (d ≤ j → tr.value .debug j t = .throw .outOfRange ∧ tr.value .release j t = .ub) := by
  obtain ⟨w0, middle, wn, l, xs, pre, mid, u, pull, post, s, rest, rfl, rfl, hk, L, c0, cn⟩ := returned hf h
  refine ⟨?_, ?_, ?_⟩
  · intro hj h1 h2
    obtain ⟨sj, hsj, hc⟩ := made_get L.made hj
    have J := L.joint mode hc
    have e : ∀ (f : SmoothLinear.Spline → ℝ → Outcome ℝ),
        evaluate f mode ⟨w0 :: middle ++ [wn], s :: rest, u + (pull * 2 - post)⟩ j t =
        evaluate f mode ⟨w0 :: middle ++ [wn], s :: rest, u + (pull * 2 - post)⟩ j (u + (pull * 2 - post)) := fun f => by
      rw [evaluate_after f mode _ j sj _ t hsj J.last J.pos.le h1 (Or.inr h2),
        evaluate_inside f mode _ j sj _ _ hsj J.last J.pos.le (le_refl _)]
    exact ⟨e _, e _, e _⟩
  · intro hj h1
    obtain ⟨sj, hsj, hc⟩ := made_get L.made hj
    have J := L.joint mode hc
    exact ⟨evaluate_outside _ _ j sj _ t hsj J.last h1, evaluate_outside _ _ j sj _ t hsj J.last h1,
      evaluate_outside _ _ j sj _ t hsj J.last h1⟩
  · intro hj
    have hl : (s :: rest).length ≤ j := by
      have := L.made.length_eq
      rw [List.length_range] at this
      omega
    exact ⟨evaluate_beyond _ .debug ⟨w0 :: middle ++ [wn], s :: rest, u + (pull * 2 - post)⟩ j t hl,
      evaluate_beyond _ .release ⟨w0 :: middle ++ [wn], s :: rest, u + (pull * 2 - post)⟩ j t hl⟩

/-- **C82.** Fewer than two waypoints, a nominal rate that is not positive, or a segment without duration in
which no joint moves: these are refused in every build, and nothing else is. -/
theorem C82_refused (mode : Mode) (d passes : ℕ) (amax : List ℝ) (ws : List WayPoint) (hf : ∀ w ∈ ws, Fits d w) :
    linearSplineInterpolation mode d amax passes ws = some (.throw .configurationError) ↔
      ws.length < 2 ∨ ¬ RatesPositive ws ∨
      ∃ i, ∃ w next : WayPoint, Segment ws i w next ∧ w.duration ≤ 0 ∧ ∀ j a b r, Moves w next j a b r → a = b := by
  have hvalid : validate ws 2 = .ok true ↔ 2 ≤ ws.length ∧ RatesPositive ws := by
    have hrp : ratesPositive ws ↔ RatesPositive ws := by
      unfold ratesPositive RatesPositive
      constructor
      · intro h i w hw hi r hr
        refine lt_of_not_ge (h w ?_ r hr)
        rw [List.mem_iff_getElem?]
        exact ⟨i, by rw [List.getElem?_dropLast, if_pos (by omega), hw]⟩
      · intro h w hw r hr
        obtain ⟨i, hi⟩ := List.mem_iff_getElem?.1 hw
        rw [List.getElem?_dropLast] at hi
        split at hi
        · exact not_le.2 (h i w hi (by omega) r hr)
        · cases hi
    unfold validate
    rw [← hrp]
    split
    next h => exact ⟨fun h' => (by cases h'), fun h' => by omega⟩
    next h =>
      split
      next h' => rw [h'] at h; simp at h
      next h' =>
        split
        next h'' => exact ⟨fun _ => ⟨by omega, h''⟩, fun _ => rfl⟩
        next h'' => exact ⟨fun h3 => (by cases h3), fun h3 => absurd h3.2 h''⟩
  rcases entered mode d amax ws hf with ⟨hv, e⟩ | ⟨hv, hb, e⟩ | ⟨hv, hb, ws', hR, hk, e⟩
  · refine ⟨fun _ => ?_, fun _ => e passes⟩
    by_contra hcon
    rw [not_or, not_or, not_lt, not_not] at hcon
    rw [hvalid.2 ⟨hcon.1, hcon.2.1⟩] at hv
    cases hv
  · exact ⟨fun _ => Or.inr (Or.inr hb), fun _ => e passes⟩
  · rw [e]
    obtain ⟨v1, v2⟩ := hvalid.1 hv
    constructor
    · intro h
      obtain ⟨w0, middle, wn, l, er, -⟩ := constrainLoop_spec mode d amax passes ws' _ hR h
      cases l <;> cases mode <;> simp [finish, CubicSpline.beyond] at er
    · rintro (h | h | h)
      · omega
      · exact absurd v2 h
      · exact absurd h hb

/-- **C82.** With at least one joint a call either does not return, is refused, or makes a trajectory: it has
no undefined behaviour and throws nothing else. -/
theorem C82_outcomes (mode : Mode) (d passes : ℕ) (amax : List ℝ) (ws : List WayPoint) (hf : ∀ w ∈ ws, Fits d w) (hd : 0 < d) :
    linearSplineInterpolation mode d amax passes ws = none ∨
    linearSplineInterpolation mode d amax passes ws = some (.throw .configurationError) ∨
    ∃ tr, linearSplineInterpolation mode d amax passes ws = some (.ok tr) := by
  rcases entered mode d amax ws hf with ⟨hv, e⟩ | ⟨hv, hb, e⟩ | ⟨hv, hb, ws', hR, hk, e⟩
  · exact Or.inr (Or.inl (e passes))
  · exact Or.inr (Or.inl (e passes))
  · rw [e]
    cases h : constrainLoop mode d amax passes ws' with
    | none => exact Or.inl rfl
    | some r =>
      right; right
      obtain ⟨w0, middle, wn, l, er, hgen, hkk, -⟩ := constrainLoop_spec mode d amax passes ws' _ hR h
      obtain ⟨g1, g2⟩ := ready_generate (hR.kept hkk)
      rcases generate_spec d amax w0 wn middle g1 g2 with ⟨k, e'⟩ | ⟨l', xs, pre, mid, u, pull, post, e', L⟩
      · rw [hgen] at e'; cases e'
      · rw [hgen] at e'
        cases e'
        exact ⟨_, by rw [er, (L.finish hd _).1]⟩

/-- **C82.** For waypoints with positive rates whose segments last a millisecond or more, large enough limits
make the call return at the first attempt. -/
theorem C82_large_limits (mode : Mode) (d : ℕ) (ws : List WayPoint) (hf : ∀ w ∈ ws, Fits d w) (hd : 0 < d)
    (h2 : 2 ≤ ws.length) (hr : RatesPositive ws)
    (hl : ∀ (i : ℕ) (w : WayPoint), ws[i]? = some w → i + 1 < ws.length → 1 / 1000 ≤ w.duration) :
    ∃ A : ℝ, ∀ amax : List ℝ, (∀ j < d, ∃ a, amax[j]? = some a ∧ A < |a|) →
      ∃ tr, linearSplineInterpolation mode d amax 1 ws = some (.ok tr) := by
  have hnr : ¬ (ws.length < 2 ∨ ¬ RatesPositive ws ∨
      ∃ i, ∃ w next : WayPoint, Segment ws i w next ∧ w.duration ≤ 0 ∧ ∀ j a b r, Moves w next j a b r → a = b) := by
    rintro (h | h | ⟨i, w, next, ⟨h1, h3⟩, h4, -⟩)
    · omega
    · exact h hr
    · have := hl i w h1 (List.getElem?_eq_some_iff.1 h3).1
      linarith
  have key : ∃ ws', Ready d ws' ∧ List.Forall₂ Kept ws ws' ∧
      ∀ (amax : List ℝ) (passes : ℕ), linearSplineInterpolation mode d amax passes ws = constrainLoop mode d amax passes ws' := by
    rcases entered mode d [] ws hf with ⟨hv, e⟩ | ⟨hv, hb, e⟩ | ⟨hv, hb, ws', hR, hk, e⟩
    · exact absurd ((C82_refused mode d 0 [] ws hf).1 (e 0)) hnr
    · exact absurd ((C82_refused mode d 0 [] ws hf).1 (e 0)) hnr
    · obtain ⟨ws'', ok, hi, -⟩ := C69_durations_partial mode d 2 ws hf hv
      have hok : ok = true := by
        cases ok with
        | true => rfl
        | false =>
          exfalso
          have := (C82_refused mode d 0 [] ws hf).1 (by unfold linearSplineInterpolation; rw [hv, hi])
          exact hnr this
      subst hok
      have e' : ∀ (amax : List ℝ) (passes : ℕ),
          linearSplineInterpolation mode d amax passes ws = constrainLoop mode d amax passes ws'' := by
        intro amax passes; unfold linearSplineInterpolation; rw [hv, hi]
      obtain ⟨ws3, ok3, hi3, hl3, hk3, hg3, -⟩ := C69_durations_partial mode d 2 ws hf hv
      rw [hi] at hi3
      cases hi3
      have hk' : List.Forall₂ Kept ws ws'' := by
        rw [List.forall₂_iff_get]
        refine ⟨hl3.symm, fun i h1 h2 => ?_⟩
        obtain ⟨t, e, ht⟩ := hk3 i ws[i] (List.getElem?_eq_getElem h1)
        rw [List.getElem?_eq_getElem h2] at e
        simp only [List.get_eq_getElem]
        rw [Option.some.inj e]
        exact ⟨rfl, rfl, ht, Or.inl ⟨rfl, rfl⟩⟩
      have hR0 : Ready d ws := ⟨h2, hf, fun i w hw hi => ⟨lt_of_lt_of_le (by norm_num) (hl i w hw hi), hr i w hw hi⟩⟩
      exact ⟨ws'', hR0.kept hk', hk', e'⟩
  obtain ⟨ws', hR, hk, e⟩ := key
  obtain ⟨w0, middle, wn, rfl⟩ := exists_ends hR.two
  have hkc := kept_configureEnds w0 wn middle
  obtain ⟨g1, g2⟩ := ready_generate (hR.kept hkc)
  have hk2 := kept_trans hk hkc
  obtain ⟨A, hA⟩ := generate_large d (configure w0) (configure wn) middle (by
    intro w hw
    obtain ⟨i, hi, e⟩ := List.getElem_of_mem hw
    obtain ⟨v, hv, k⟩ := kept_get hk2 i w (by rw [List.getElem?_append_left hi, List.getElem?_eq_getElem hi, e])
    exact (hl i v hv (by rw [hk2.length_eq]; simp at hi ⊢; omega)).trans k.longer) g2
  refine ⟨A, fun amax ha => ?_⟩
  obtain ⟨l, hg⟩ := hA amax (fun j hj => by
    obtain ⟨a, h1, h2⟩ := ha j hj
    rw [at_of_getElem? h1]; exact h2)
  rcases generate_spec d amax (configure w0) (configure wn) middle g1 g2 with ⟨k, e'⟩ | ⟨l', xs, pre, mid, u, pull, post, e', L⟩
  · rw [hg] at e'; cases e'
  · rw [hg] at e'
    cases e'
    refine ⟨⟨configure w0 :: middle ++ [configure wn], l, u + (pull * 2 - post)⟩, ?_⟩
    rw [e, constrainLoop, generateFor_eq, hg, configureEnds_eq]
    exact congrArg some (L.finish hd _).1

/-- **C82.** A call need not return: when the limit is broken at the end of the trajectory the first segment is
stretched instead of the last one, which does not help.  Here one joint has to rest for a second and
then move by 1 in a second, with an acceleration of at most 1/2. -/
theorem C82_fails_returns :
    ¬ (∀ (mode : Mode) (d : ℕ) (amax : List ℝ) (ws : List WayPoint), 0 < d → (∀ w ∈ ws, Fits d w) → 2 ≤ ws.length →
      RatesPositive ws → amax.length = d → (∀ a ∈ amax, 0 < a) →
      (∀ (i : ℕ) (w : WayPoint), ws[i]? = some w → i + 1 < ws.length → 0 < w.duration) →
      ∃ passes r, linearSplineInterpolation mode d amax passes ws = some r) := by
  intro h
  have hfit : ∀ w ∈ hanging 1 false false, Fits 1 w := by
    intro w hw
    simp only [hanging, List.mem_cons, List.not_mem_nil, or_false] at hw
    rcases hw with rfl | rfl | rfl <;> exact ⟨rfl, rfl, rfl⟩
  have hget : ∀ (i : ℕ) (w : WayPoint), (hanging 1 false false)[i]? = some w → i + 1 < (hanging 1 false false).length →
      w.duration = 1 ∧ w.nominal = [1] := by
    intro i w hw hi
    simp only [hanging, List.length_cons, List.length_nil] at hi
    have : i = 0 ∨ i = 1 := by omega
    rcases this with rfl | rfl <;> simp [hanging] at hw <;> subst hw <;> exact ⟨rfl, rfl⟩
  obtain ⟨passes, r, hr⟩ := h .release 1 [1 / 2] (hanging 1 false false) (by norm_num) hfit (by simp [hanging])
    (fun i w hw hi x hx => by rw [(hget i w hw hi).2] at hx; simp at hx; rw [hx]; norm_num) rfl
    (fun a ha => by simp at ha; rw [ha]; norm_num)
    (fun i w hw hi => by rw [(hget i w hw hi).1]; norm_num)
  have hv : validate (hanging 1 false false) 2 = .ok true := by
    unfold validate
    rw [if_neg (by simp [hanging]), if_neg (by simp [hanging]), if_pos]
    intro w hw x hx
    simp only [hanging, List.dropLast, List.mem_cons, List.not_mem_nil, or_false] at hw
    rcases hw with rfl | rfl <;> simp at hx <;> rw [hx] <;> norm_num
  have hi : initialiseDurations .release 1 (hanging 1 false false) = .ok (hanging 1 false false) true := by
    simp [initialiseDurations, hanging, segmentLoop, jointLoop, Arr.get, Arr.rawGet, assertThrow, raiseDuration,
      List.range_succ, bind, Outcome.bind]
    norm_num
  unfold linearSplineInterpolation at hr
  rw [hv, hi] at hr
  simp only at hr
  rw [hanging_loop .release passes 1 false false (by norm_num)] at hr
  cases hr

/-- A trajectory of two joints through three waypoints, with large limits; the second joint is asked to
arrive with rate 2. -/
example : ∃ (amax : List ℝ) (tr : Trajectory) (c : ℝ),
    linearSplineInterpolation .release 2 amax 1
      [⟨[0, 5], [1, 0], [1, 1], 3, true⟩, ⟨[1, 4], [0, 0], [1, 1], 2, false⟩, ⟨[2, 7], [0, 2], [1, 1], 0, true⟩] = some (.ok tr) ∧
    tr.value .release 0 0 = .ok 0 ∧ tr.rate .release 0 0 = .ok 1 ∧ tr.value .release 1 tr.duration = .ok 7 ∧
    tr.rate .release 1 tr.duration = .ok c ∧ c ≠ 2 := by
  have hf : ∀ w ∈ ([⟨[0, 5], [1, 0], [1, 1], 3, true⟩, ⟨[1, 4], [0, 0], [1, 1], 2, false⟩, ⟨[2, 7], [0, 2], [1, 1], 0, true⟩] : List WayPoint),
      Fits 2 w := by
    intro w hw
    simp only [List.mem_cons, List.not_mem_nil, or_false] at hw
    rcases hw with rfl | rfl | rfl <;> exact ⟨rfl, rfl, rfl⟩
  obtain ⟨A, hA⟩ := C82_large_limits .release 2 _ hf (by norm_num) (by simp)
    (by
      intro i w hw hi r hr
      simp only [List.length_cons, List.length_nil] at hi
      have : i = 0 ∨ i = 1 := by omega
      rcases this with rfl | rfl <;> simp at hw <;> subst hw <;> simp at hr <;> rw [hr] <;> norm_num)
    (by
      intro i w hw hi
      simp only [List.length_cons, List.length_nil] at hi
      have : i = 0 ∨ i = 1 := by omega
      rcases this with rfl | rfl <;> simp at hw <;> subst hw <;> norm_num)
  have hlt : A < |(|A| + 1)| := by
    have := le_abs_self A
    rw [abs_of_nonneg (by positivity : (0 : ℝ) ≤ |A| + 1)]
    linarith
  obtain ⟨tr, htr⟩ := hA [|A| + 1, |A| + 1] (by
    intro j hj
    have : j = 0 ∨ j = 1 := by omega
    rcases this with rfl | rfl <;> exact ⟨_, rfl, hlt⟩)
  have S := (C82_smooth .release 2 1 _ _ tr hf htr).2.2
  have S0 := S 0 (by norm_num) _ _ 0 2 (|A| + 1) rfl rfl rfl rfl rfl
  have S1 := S 1 (by norm_num) _ _ 5 7 (|A| + 1) rfl rfl rfl rfl rfl
  obtain ⟨c, -, hc, e⟩ := C82_end_rate .release 2 1 _ _ tr hf htr 1 (by norm_num) _ rfl
  refine ⟨_, tr, _, htr, S0.2.2.1, ?_, S1.2.2.2.1, e, ?_⟩
  · rw [S0.2.2.2.2.1]; rfl
  · show (2 : ℝ) * c ≠ 2
    intro h
    linarith

end Ecl.Props
