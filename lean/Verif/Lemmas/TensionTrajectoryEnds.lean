import Verif.Lemmas.TensionTrajectory
import Verif.Lemmas.LinearTrajectoryEnds

/-! # What the pieces of a tension spline trajectory join up to -/
set_option autoImplicit false
set_option linter.unusedSimpArgs false

namespace Ecl.Spec
open Set

theorem OnceSmooth.append {v d : ℝ → Outcome ℝ} {a b c : ℝ} (h1 : OnceSmooth v d a b) (h2 : OnceSmooth v d b c)
    (hab : a ≤ b) (hbc : b ≤ c) : OnceSmooth v d a c := by
  obtain ⟨f, f', e1, d1, c1⟩ := h1
  obtain ⟨g, g', e2, d2, c2⟩ := h2
  have hu := (Icc_union_Icc_eq_Icc hab hbc).symm
  have k1 : ∀ x ∈ Icc a b, Glue.got (v x) = f x ∧ Glue.got (d x) = f' x := fun x hx => by
    rw [(e1 x hx).1, (e1 x hx).2]; exact ⟨rfl, rfl⟩
  have k2 : ∀ x ∈ Icc b c, Glue.got (v x) = g x ∧ Glue.got (d x) = g' x := fun x hx => by
    rw [(e2 x hx).1, (e2 x hx).2]; exact ⟨rfl, rfl⟩
  refine ⟨fun x => Glue.got (v x), fun x => Glue.got (d x), ?_, ?_, ?_⟩
  · intro x hx
    rw [hu] at hx
    rcases hx with hx | hx
    · show v x = .ok (Glue.got (v x)) ∧ d x = .ok (Glue.got (d x))
      rw [(e1 x hx).1, (e1 x hx).2]; exact ⟨rfl, rfl⟩
    · show v x = .ok (Glue.got (v x)) ∧ d x = .ok (Glue.got (d x))
      rw [(e2 x hx).1, (e2 x hx).2]; exact ⟨rfl, rfl⟩
  · intro x hx
    rw [hu]
    show HasDerivWithinAt (fun x => Glue.got (v x)) (Glue.got (d x)) _ x
    apply HasDerivWithinAt.union
    · by_cases hx' : x ∈ Icc a b
      · rw [show Glue.got (d x) = f' x from (k1 x hx').2]
        exact (d1 x hx').congr (fun y hy => (k1 y hy).1) (k1 x hx').1
      · exact Glue.hasDerivWithinAt_outside isClosed_Icc hx'
    · by_cases hx' : x ∈ Icc b c
      · rw [show Glue.got (d x) = g' x from (k2 x hx').2]
        exact (d2 x hx').congr (fun y hy => (k2 y hy).1) (k2 x hx').1
      · exact Glue.hasDerivWithinAt_outside isClosed_Icc hx'
  · rw [hu]
    exact ContinuousOn.union_of_isClosed (c1.congr fun x hx => (k1 x hx).2) (c2.congr fun x hx => (k2 x hx).2)
      isClosed_Icc isClosed_Icc

theorem TwiceSmooth.once {v d c : ℝ → Outcome ℝ} {a b : ℝ} (h : TwiceSmooth v d c a b) : OnceSmooth v d a b := by
  obtain ⟨f, f', f'', h1, h2, h3, -⟩ := h
  exact ⟨f, f', fun x hx => ⟨(h1 x hx).1, (h1 x hx).2.1⟩, h2, fun x hx => (h3 x hx).continuousWithinAt⟩

theorem TwiceSmooth.within {v d c : ℝ → Outcome ℝ} {a b a' b' : ℝ} (h : TwiceSmooth v d c a b) (ha : a ≤ a') (hb : b' ≤ b) :
    TwiceSmooth v d c a' b' := by
  obtain ⟨f, f', f'', h1, h2, h3, h4⟩ := h
  have hs : Icc a' b' ⊆ Icc a b := Icc_subset_Icc ha hb
  exact ⟨f, f', f'', fun x hx => h1 x (hs hx), fun x hx => (h2 x (hs hx)).mono hs, fun x hx => (h3 x (hs hx)).mono hs, h4.mono hs⟩

end Ecl.Spec

namespace Ecl.TensionTrajectory
open Ecl Ecl.Poly Ecl.Manip Ecl.TensionSpline Ecl.Spec
open Ecl.SmoothLinear (Within)
open Ecl.LinearTrajectory (Kept Ready kept_refl kept_trans kept_get stretchOne rate_kept smooth_congr configureEnds)
open Ecl.CubicSpline (at')

/-! ## Entry -/

theorem validate_iff {ws : List WayPoint} {k : ℕ} (hk : 0 < k) : validate ws k = .ok true ↔ k ≤ ws.length ∧ RatesPositive ws := by
  have hrp : ratesPositive ws ↔ RatesPositive ws := by
    unfold ratesPositive RatesPositive
    constructor
    · intro h i w hw hi r hr
      refine lt_of_not_ge (h w ?_ r hr)
      rw [List.mem_iff_getElem?]
      exact ⟨i, by rw [List.getElem?_dropLast, if_pos (by omega), hw]⟩
    · intro h w hw r hr
      obtain ⟨i, hi⟩ := List.mem_iff_getElem?.1 hw
      rw [List.getElem?_dropLast] at hi
      split at hi
      · exact not_le.2 (h i w hi (by omega) r hr)
      · cases hi
  unfold validate
  rw [← hrp]
  split
  next h => exact ⟨fun h' => (by cases h'), fun h' => by omega⟩
  next h =>
    split
    next h' => rw [h'] at h; simp at h; omega
    next h' =>
      split
      next h'' => exact ⟨fun _ => ⟨by omega, h''⟩, fun _ => rfl⟩
      next h'' => exact ⟨fun h3 => (by cases h3), fun h3 => absurd h3.2 h''⟩

theorem validate_total {ws : List WayPoint} {k : ℕ} (hk : 0 < k) : ∃ b, validate ws k = .ok b := by
  unfold validate
  split
  · exact ⟨_, rfl⟩
  · split
    next h1 h2 => rw [h2] at h1; simp at h1; omega
    · split <;> exact ⟨_, rfl⟩

/-- Usable waypoints get durations. -/
theorem initialised (mode : Mode) {d k : ℕ} (hk : 2 ≤ k) {ws : List WayPoint} (hf : ∀ w ∈ ws, Fits d w) (hu : Usable k ws) :
    ∃ ws', initialiseDurations mode d ws = .ok ws' true ∧ Ready d ws' ∧ List.Forall₂ Kept ws ws' := by
  obtain ⟨h2, hrp, hseg⟩ := hu
  have hv : validate ws 2 = .ok true := (validate_iff (by norm_num)).2 ⟨by omega, hrp⟩
  obtain ⟨ws', ok, hi, hl, hk, hg, hbad⟩ := Props.C69_durations_partial mode d 2 ws hf hv
  have hok : ok = true := by
    cases ok with
    | true => rfl
    | false =>
      exfalso
      obtain ⟨i, w, next, hs, h0, hm⟩ := hbad.1 rfl
      rcases hseg i w next hs with h | ⟨j, a, b, r, h1, h2⟩
      · linarith
      · exact h2 (hm j a b r h1)
  subst hok
  have hk' : List.Forall₂ Kept ws ws' := by
    rw [List.forall₂_iff_get]
    refine ⟨hl.symm, fun i h1 h2 => ?_⟩
    obtain ⟨t, e, ht⟩ := hk i ws[i] (List.getElem?_eq_getElem h1)
    rw [List.getElem?_eq_getElem h2] at e
    simp only [List.get_eq_getElem]
    rw [Option.some.inj e]
    exact ⟨rfl, rfl, ht, Or.inl ⟨rfl, rfl⟩⟩
  refine ⟨ws', hi, ⟨by omega, ?_, ?_⟩, hk'⟩
  · intro w' hw'
    obtain ⟨i, hi', e⟩ := List.getElem_of_mem hw'
    obtain ⟨w, h1, h2⟩ := kept_get hk' i w' (by rw [List.getElem?_eq_getElem hi', e])
    have hfw := hf w (List.mem_of_getElem? h1)
    refine ⟨h2.angles ▸ hfw.1, h2.nominal ▸ hfw.2.1, ?_⟩
    rcases h2.rates with ⟨e1, -⟩ | ⟨-, e1, -⟩
    · rw [e1]; exact hfw.2.2
    · rw [e1, List.length_replicate]; exact hfw.1
  · intro i w' hw' hi'
    obtain ⟨w, h1, h3⟩ := kept_get hk' i w' hw'
    have hi2 : i + 1 < ws.length := by omega
    obtain ⟨t, e, ht, -⟩ := hg rfl i w ws[i + 1] ⟨h1, List.getElem?_eq_getElem hi2⟩
    rw [hw'] at e
    cases e
    exact ⟨ht, hrp i w h1 hi2⟩

/-- The call, once past the checks. -/
theorem entered (mode : Mode) {d : ℕ} (amax : List ℝ) (tau : ℝ) (passes : ℕ) {ws : List WayPoint} (hf : ∀ w ∈ ws, Fits d w)
    (hu : Usable 3 ws) (hm : mode = .release ∨ 5 ≤ ws.length) :
    ∃ ws', Ready d ws' ∧ List.Forall₂ Kept ws ws' ∧
      tensionSplineInterpolation mode d amax tau passes ws = build mode d amax tau passes ws' := by
  obtain ⟨ws', hi, hr, hk⟩ := initialised mode (by norm_num) hf hu
  refine ⟨ws', hr, hk, ?_⟩
  unfold tensionSplineInterpolation
  rcases hm with rfl | hm
  · obtain ⟨b, hb⟩ := validate_total (ws := ws) (k := 5) (by norm_num)
    rw [hb, hi]
    rfl
  · have hv : validate ws 5 = .ok true := (validate_iff (by norm_num)).2 ⟨hm, hu.2.1⟩
    rw [hv, hi]
    cases mode with
    | release => rfl
    | debug => simp [assertThrow, hm, Outcome.bind]

theorem configureEnds_kept {ws : List WayPoint} (h : 2 ≤ ws.length) :
    List.Forall₂ Kept ws (configureEnds ws) ∧ (wp (configureEnds ws) 0).ratesConfigured = true ∧
    (wp (configureEnds ws) (ws.length - 1)).ratesConfigured = true := by
  obtain ⟨w0, middle, wn, rfl⟩ := LinearTrajectory.exists_ends h
  rw [LinearTrajectory.configureEnds_eq]
  refine ⟨LinearTrajectory.kept_configureEnds w0 wn middle, (LinearTrajectory.kept_configure w0).2, ?_⟩
  have : (LinearTrajectory.configure w0 :: middle ++ [LinearTrajectory.configure wn])[(w0 :: middle ++ [wn]).length - 1]? =
      some (LinearTrajectory.configure wn) := by
    rw [show (w0 :: middle ++ [wn]).length - 1 = (LinearTrajectory.configure w0 :: middle).length by simp,
      List.getElem?_concat_length]
  rw [wp, List.getD_eq_getElem?_getD, this]
  exact (LinearTrajectory.kept_configure wn).2

/-- What a call that returns has made: `ws1` are the waypoints the leading quintics were made for. -/
structure Laid (mode : Mode) (d : ℕ) (amax : List ℝ) (tau : ℝ) (ws ws1 : List WayPoint) (start t : ℝ) (tr : Trajectory) : Prop where
  kept : List.Forall₂ Kept ws ws1
  kept' : List.Forall₂ Kept ws1 tr.waypoints
  ready : Ready d tr.waypoints
  three : 3 ≤ tr.waypoints.length
  configured : (wp ws1 0).ratesConfigured = true
  configured' : (wp tr.waypoints (tr.waypoints.length - 1)).ratesConfigured = true
  pos : 0 < start
  half : start ≤ (wp ws1 0).duration / 2
  leading : List.Forall₂ (Leading mode amax tau start ws1) (List.range d) tr.leading
  finished : Finished mode d amax tau start t tr.leading tr

theorem kept_wp {a b : List WayPoint} (h : List.Forall₂ Kept a b) {i : ℕ} (hi : i < a.length) : Kept (wp a i) (wp b i) := by
  obtain ⟨w, h1, h2⟩ := kept_get h i (wp b i) (wp_get b (h.length_eq ▸ hi))
  rw [wp_get a hi] at h1
  cases h1
  exact h2

theorem configured_kept {a b : List WayPoint} (h : List.Forall₂ Kept a b) {i : ℕ} (hi : i < a.length)
    (hc : (wp a i).ratesConfigured = true) : (wp b i).ratesConfigured = true := by
  rcases (kept_wp h hi).rates with ⟨-, e⟩ | ⟨-, -, e⟩
  · rw [e, hc]
  · exact e

theorem build_spec (mode : Mode) {d : ℕ} (hd : 0 < d) (amax : List ℝ) {tau : ℝ} (ht : 0 < tau) (passes : ℕ) {ws : List WayPoint}
    (hr : Ready d ws) (h3 : 3 ≤ ws.length) :
    build mode d amax tau passes ws = none ∨
    ∃ tr ws1 start t, build mode d amax tau passes ws = some (.ok tr) ∧ Laid mode d amax tau ws ws1 start t tr := by
  unfold build
  rcases knotLoop_spec mode hd amax ht passes ws hr h3 with h | ⟨ws1, h, k1⟩
  · rw [h]; exact Or.inl rfl
  rw [h]
  have hr1 := hr.kept k1
  obtain ⟨k2, c0, cn⟩ := configureEnds_kept hr1.two
  have hr2 := hr1.kept k2
  have l2 : 3 ≤ (configureEnds ws1).length := by rw [← k2.length_eq, ← k1.length_eq]; exact h3
  rcases leadingLoop_spec mode amax ht passes _ hr2 l2 with h | ⟨ws2, start, qs, h, k3, p1, p2, hl⟩
  · simp only; rw [h]; exact Or.inl rfl
  simp only
  rw [h]
  simp only
  have hr3 := hr2.kept k3
  have l3 : 3 ≤ ws2.length := by rw [← k3.length_eq]; exact l2
  rcases trailingLoop_spec mode hd amax ht start qs passes ws2 hr3 l3 with h | ⟨tr, t, h, k4, F⟩
  · exact Or.inl h
  right
  have l4 := k4.length_eq
  refine ⟨tr, ws2, start, t, h, kept_trans k1 (kept_trans k2 k3), k4, hr3.kept k4, by omega, ?_, ?_, p1, p2, ?_, ?_⟩
  · exact configured_kept k3 (by omega) c0
  · refine configured_kept k4 (by omega) (configured_kept k3 (by rw [k3.length_eq]; omega) ?_)
    rw [k2.length_eq, k3.length_eq, k4.length_eq] at cn
    exact cn
  · rw [F.leading]; exact hl
  · exact ⟨rfl, F.first, F.middle, F.pos, F.half, F.second, F.duration, F.trailing⟩

theorem returned {mode : Mode} {d passes : ℕ} {amax : List ℝ} {tau : ℝ} {ws : List WayPoint} {tr : Trajectory} (hd : 0 < d)
    (ht : 0 < tau) (hf : ∀ w ∈ ws, Fits d w) (hu : Usable 3 ws)
    (h : tensionSplineInterpolation mode d amax tau passes ws = some (.ok tr)) :
    ∃ ws1 start t, Laid mode d amax tau ws ws1 start t tr := by
  have hm : mode = .release ∨ 5 ≤ ws.length := by
    cases mode with
    | release => exact Or.inl rfl
    | debug =>
      right
      by_contra h5
      unfold tensionSplineInterpolation at h
      simp [assertThrow, h5] at h
  obtain ⟨ws', hr, hk, e⟩ := entered mode amax tau passes hf hu hm
  rw [e] at h
  rcases build_spec mode hd amax ht passes hr (hk.length_eq ▸ hu.1) with h' | ⟨tr', ws1, start, t, h', L⟩
  · rw [h'] at h; cases h
  · rw [h'] at h
    cases h
    exact ⟨ws1, start, t, kept_trans hk L.kept, L.kept', L.ready, L.three, L.configured, L.configured', L.pos, L.half, L.leading, L.finished⟩

/-! ## Evaluation -/

section
variable {mode : Mode} {d : ℕ} {amax : List ℝ} {tau : ℝ} {ws ws1 : List WayPoint} {start t : ℝ} {tr : Trajectory}

theorem Laid.first_lt (L : Laid mode d amax tau ws ws1 start t tr) : 0 < tr.first ∧ tr.first < tr.second ∧ tr.second < tr.duration := by
  have F := L.finished
  have h3 := L.three
  have hk := kept_wp L.kept' (i := 0) (by rw [L.kept'.length_eq]; omega)
  have hsum : (wp tr.waypoints 0).duration + (wp tr.waypoints (tr.waypoints.length - 2)).duration ≤ (durations tr.waypoints).sum := by
    have hl := durations_length tr.waypoints
    have e : durations tr.waypoints = (durations tr.waypoints).take 1 ++ (durations tr.waypoints).drop 1 := (List.take_append_drop _ _).symm
    have e0 : (durations tr.waypoints).take 1 = [(wp tr.waypoints 0).duration] := by
      have h0 : 0 < (durations tr.waypoints).length := by omega
      rw [← durations_get tr.waypoints (i := 0) (by omega), CubicSpline.at_getElem h0, List.take_one,
        List.head?_eq_getElem?, List.getElem?_eq_getElem h0]
      rfl
    have hm : (wp tr.waypoints (tr.waypoints.length - 2)).duration ∈ (durations tr.waypoints).drop 1 := by
      have h0 : tr.waypoints.length - 2 < (durations tr.waypoints).length := by omega
      rw [← durations_get tr.waypoints (i := tr.waypoints.length - 2) (by omega), CubicSpline.at_getElem h0, List.mem_iff_getElem?]
      refine ⟨tr.waypoints.length - 3, ?_⟩
      rw [List.getElem?_drop, show 1 + (tr.waypoints.length - 3) = tr.waypoints.length - 2 by omega, List.getElem?_eq_getElem h0]
    have h2 := List.single_le_sum (fun x hx => (durations_pos L.ready x (List.mem_of_mem_drop hx)).le) _ hm
    rw [e, List.sum_append, e0, List.sum_singleton]
    linarith
  have p0 := wp_pos L.ready (i := 0) (by omega)
  have hh := L.half
  have hkl := hk.longer
  have f1 := F.pos
  have f2 := F.half
  have f3 := L.pos
  rw [F.first, F.second, F.duration]
  refine ⟨by linarith, by linarith, by linarith⟩

variable (f : Coeffs ℝ → ℝ → ℝ) (g : TensionSpline.Spline → ℝ → Outcome ℝ)

theorem evaluate_eq {j : ℕ} {p q : Coeffs ℝ} {s : TensionSpline.Spline} (hp : tr.leading[j]? = some p) (hs : tr.middle[j]? = some s)
    (hq : tr.trailing[j]? = some q) (x : ℝ) :
    evaluate f g mode tr j x = select mode ⟨0, tr.first, fun x => .ok (f p x)⟩ ⟨tr.first, tr.second, g s⟩
        ⟨tr.second, tr.duration, fun x => .ok (f q x)⟩ x := by
  unfold evaluate
  rw [Arr_get_some mode hp]
  simp only [Outcome.bind]
  rw [Arr_get_some mode hs]
  simp only
  rw [Arr_get_some mode hq]

theorem assertThrow_true {b : Prop} [Decidable b] (h : b) (e : Flag) : assertThrow mode (decide b) e = .ok () := by
  cases mode <;> simp [assertThrow, h]

theorem evaluate_first {j : ℕ} {p q : Coeffs ℝ} {s : TensionSpline.Spline} (hp : tr.leading[j]? = some p) (hs : tr.middle[j]? = some s)
    (hq : tr.trailing[j]? = some q) {x : ℝ} (h12 : tr.first < tr.second) (h23 : tr.second < tr.duration) (h0 : 0 ≤ x) (h1 : x ≤ tr.first) :
    evaluate f g mode tr j x = .ok (f p x) := by
  rw [evaluate_eq f g hp hs hq]
  unfold select Piece.at
  rw [assertThrow_true (by constructor <;> linarith)]
  simp only [Outcome.bind]
  rw [if_pos h1, assertThrow_true ⟨h0, h1⟩]

theorem evaluate_second {j : ℕ} {p q : Coeffs ℝ} {s : TensionSpline.Spline} (hp : tr.leading[j]? = some p) (hs : tr.middle[j]? = some s)
    (hq : tr.trailing[j]? = some q) {x : ℝ} (h0 : 0 < tr.first) (h23 : tr.second < tr.duration) (h1 : tr.first < x) (h2 : x ≤ tr.second) :
    evaluate f g mode tr j x = g s x := by
  rw [evaluate_eq f g hp hs hq]
  unfold select Piece.at
  rw [assertThrow_true (by constructor <;> linarith)]
  simp only [Outcome.bind]
  rw [if_neg (by linarith), if_pos h2, assertThrow_true ⟨h1.le, h2⟩]

theorem evaluate_third {j : ℕ} {p q : Coeffs ℝ} {s : TensionSpline.Spline} (hp : tr.leading[j]? = some p) (hs : tr.middle[j]? = some s)
    (hq : tr.trailing[j]? = some q) {x : ℝ} (h0 : 0 < tr.first) (h12 : tr.first < tr.second) (h2 : tr.second < x) (h3 : x ≤ tr.duration) :
    evaluate f g mode tr j x = .ok (f q x) := by
  rw [evaluate_eq f g hp hs hq]
  unfold select Piece.at
  rw [assertThrow_true (by constructor <;> linarith)]
  simp only [Outcome.bind]
  rw [if_neg (by linarith), if_neg (by linarith), if_pos h3, assertThrow_true ⟨h2.le, h3⟩]

end

/-- A quintic piece is smooth. -/
theorem quintic_smooth {v d c : ℝ → Outcome ℝ} (p : Coeffs ℝ) {a b : ℝ} (hv : ∀ x ∈ Set.Icc a b, v x = .ok (eval 5 p x))
    (hd : ∀ x ∈ Set.Icc a b, d x = .ok (derivativeAt 5 p x)) (hc : ∀ x ∈ Set.Icc a b, c x = .ok (dderivativeAt 5 p x)) :
    TwiceSmooth v d c a b :=
  ⟨_, _, _, fun x hx => ⟨hv x hx, hd x hx, hc x hx⟩, fun x _ => (SmoothLinear.hasDerivAt_eval 5 p x).hasDerivWithinAt,
    fun x _ => (SmoothLinear.hasDerivAt_derivativeAt 5 p x).hasDerivWithinAt, (SmoothLinear.continuous_dderivativeAt 5 p).continuousOn⟩

theorem once_congr {f g f' g' : ℝ → Outcome ℝ} {a b : ℝ} (h : OnceSmooth f f' a b)
    (e : ∀ x ∈ Set.Icc a b, g x = f x ∧ g' x = f' x) : OnceSmooth g g' a b := by
  obtain ⟨F, F', h1, h2, h3⟩ := h
  refine ⟨F, F', fun x hx => ?_, h2, h3⟩
  rw [(e x hx).1, (e x hx).2]
  exact h1 x hx

/-- The three pieces of a joint. -/
structure Parts (mode : Mode) (d : ℕ) (amax : List ℝ) (tau : ℝ) (ws1 : List WayPoint) (start t : ℝ) (tr : Trajectory) (j : ℕ)
    (p q : Coeffs ℝ) (s : TensionSpline.Spline) : Prop where
  hp : tr.leading[j]? = some p
  hs : tr.middle[j]? = some s
  hq : tr.trailing[j]? = some q
  lead : Leading mode amax tau start ws1 j p
  spline : Splined mode tau start tr.waypoints j s
  trail : value mode s tr.second = .ok (eval 5 q tr.second) ∧ slope mode s tr.second = .ok (derivativeAt 5 q tr.second)
  endValue : eval 5 q tr.duration = at' (wp tr.waypoints (tr.waypoints.length - 1)).angles j
  endRate : derivativeAt 5 q tr.duration = at' (wp tr.waypoints (tr.waypoints.length - 1)).rates j
  endCurvature : dderivativeAt 5 q tr.duration = 0
  startValue : eval 5 p 0 = at' (wp ws1 0).angles j
  startRate : derivativeAt 5 p 0 = at' (wp ws1 0).rates j
  startCurvature : dderivativeAt 5 p 0 = 0
  firstCurvature : dderivativeAt 5 p tr.first = 0
  boundLead : ∀ x ∈ Set.Icc 0 tr.first, |dderivativeAt 5 p x| ≤ |at' amax j|
  boundTrail : ∀ x ∈ Set.Icc tr.second tr.duration, |dderivativeAt 5 q x| ≤ |at' amax j|

theorem Laid.parts {mode : Mode} {d : ℕ} {amax : List ℝ} {tau : ℝ} {ws ws1 : List WayPoint} {start t : ℝ} {tr : Trajectory}
    (L : Laid mode d amax tau ws ws1 start t tr) {j : ℕ} (hj : j < d) :
    ∃ p q s, Parts mode d amax tau ws1 start t tr j p q s := by
  obtain ⟨p, hp, hl⟩ := made_get L.leading hj
  have F := L.finished
  obtain ⟨s, hs, hsp⟩ := made_get F.middle hj
  obtain ⟨q, hq, htr⟩ := made_get F.trailing hj
  obtain ⟨f0, f1, f2⟩ := L.first_lt
  refine ⟨p, q, s, ?_⟩
  have hl' := hl
  obtain ⟨s1, y1, yd1, -, -, -, hc1, hw1⟩ := hl'
  obtain ⟨s2, y2, yd2, hsp2, hy2, hyd2, hc2, hw2⟩ := htr
  have hss : s2 = s := by
    obtain ⟨z, hz⟩ := hsp
    obtain ⟨z2, hz2⟩ := hsp2
    have := hz.made
    rw [hz2.made] at this
    exact Outcome.ok.inj this
  subst hss
  have p1 := L.pos
  have p2 := F.pos
  obtain ⟨c, hc, a1, a2, a3, a4, a5, a6⟩ := Props.C53_quintic 0 (at' (wp ws1 0).angles j) (at' (wp ws1 0).rates j) 0 (2 * start) y1 yd1 0
    (by linarith)
  rw [hc1] at hc
  cases hc
  obtain ⟨c, hc, b1, b2, b3, b4, b5, b6⟩ := Props.C53_quintic (start + (durations tr.waypoints).sum - t) y2 yd2 0
    (start + (durations tr.waypoints).sum + t) (at' (wp tr.waypoints (tr.waypoints.length - 1)).angles j)
    (at' (wp tr.waypoints (tr.waypoints.length - 1)).rates j) 0 (by linarith)
  rw [hc2] at hc
  cases hc
  rw [← F.second] at hy2 hyd2 b1 b2 hw2
  rw [← F.duration] at b4 b5 b6 hw2
  rw [← F.first] at a6 hw1
  exact ⟨hp, hs, hq, hl, hsp, ⟨by rw [hy2, b1], by rw [hyd2, b2]⟩, b4, b5, b6, a1, a2, a3, a6,
    SmoothLinear.bound_of_within f0.le hw1, SmoothLinear.bound_of_within f2.le hw2⟩

end Ecl.TensionTrajectory
