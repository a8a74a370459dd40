import Verif.Lemmas.LinearTrajectory
import Verif.Spec.Trajectory
import Verif.Props.C69_Durations
import Mathlib.Analysis.Calculus.Deriv.MeanValue

/-! # What the smoothed linear trajectories join up to, when they are made and when not -/
set_option autoImplicit false
set_option linter.unusedSimpArgs false

namespace Ecl.LinearTrajectory
open Ecl Ecl.Poly Ecl.Manip Ecl.SmoothLinear Ecl.Spec
open Ecl.CubicSpline (at')

theorem at_of_getElem? {l : List ℝ} {j : ℕ} {a : ℝ} (h : l[j]? = some a) : at' l j = a := by
  rw [at', List.getD_eq_getElem?_getD, h]; rfl

theorem getLast?_two (l : List ℝ) (a b : ℝ) : (l ++ [a, b]).getLast? = some b := by
  rw [show l ++ [a, b] = (l ++ [a]) ++ [b] by simp, List.getLast?_concat]

theorem finalTangent_eval (w : WayPoint) (pull t : ℝ) (j : ℕ) :
    eval 1 (finalTangent w pull j) t = at' w.angles j + at' w.rates j * (t - pull) := by
  rw [(line_eval _ _).1]
  show at' w.angles j - at' w.rates j * pull + at' w.rates j * t = _
  ring

theorem initialTangent_eval (w : WayPoint) (t : ℝ) (j : ℕ) :
    eval 1 (initialTangent w j) t = at' w.angles j + at' w.rates j * t := by
  rw [(line_eval _ _).1]
  show at' w.angles j - at' w.rates j * 0 + at' w.rates j * t = _
  ring

/-- One joint of what was laid out. -/
structure JointMade (mode : Mode) (w0 wn : WayPoint) (s : Spline) (amax T : ℝ) (j : ℕ) (pull post : ℝ) : Prop where
  head : s.domain.head? = some 0
  last : s.domain.getLast? = some T
  pos : 0 < T
  smooth : TwiceSmooth (value mode s) (slope mode s) (curvature mode s) 0 T
  bound : ∀ t ∈ Set.Icc 0 T, ∃ v, curvature mode s t = .ok v ∧ |v| ≤ |amax|
  start : value mode s 0 = .ok (at' w0.angles j)
  stop : value mode s T = .ok (at' wn.angles j)
  start_rate : slope mode s 0 = .ok (at' w0.rates j)
  start_acc : curvature mode s 0 = .ok 0
  stop_rate : slope mode s T = .ok (at' wn.rates j * ((pull - post) / (pull * 2 - post)))
  stop_acc : curvature mode s T = .ok 0

theorem Laid.joint (mode : Mode) {d : ℕ} {amax : List ℝ} {w0 wn : WayPoint} {middle : List WayPoint} {l : List Spline}
    {xs : List ℝ} {pre : ℝ} {mid : List ℝ} {u pull post : ℝ} (h : Laid d amax w0 wn middle l xs pre mid u pull post)
    {j : ℕ} {s : Spline} (hs : construct xs (values w0 wn middle pre post pull j) (at' amax j) = .ok s) :
    JointMade mode w0 wn s (at' amax j) (u + (pull * 2 - post)) j pull post := by
  have hxl : xs.length = middle.length + 4 := by rw [h.eq]; simp [h.len]
  have hvl := values_length w0 wn middle pre post pull j
  have hy : values w0 wn middle pre post pull j = at' w0.angles j :: (eval 1 (initialTangent w0 j) pre ::
    (middle.map fun w => at' w.angles j)) ++ [eval 1 (finalTangent wn pull j) post, at' wn.angles j] := rfl
  have hT : xs.getLast? = some (u + (pull * 2 - post)) := by rw [h.eq]; exact getLast?_two _ _ _
  have hpos : 0 < u + (pull * 2 - post) := by
    have hr := h.rising
    rw [h.eq, List.cons_append, List.pairwise_cons] at hr
    exact hr.1 _ (by simp)
  have hends := Props.C59_ends mode xs _ (at' amax j) s (middle.length + 2) (by omega) (by omega) h.rising hs
    0 pre (at' w0.angles j) (eval 1 (initialTangent w0 j) pre) u (u + (pull * 2 - post))
    (eval 1 (finalTangent wn pull j) post) (at' wn.angles j)
    (by rw [h.eq]; rfl) (by rw [h.eq]; rfl) rfl rfl
    (by rw [h.eq, ← h.len]; simp) (by rw [h.eq, ← h.len]; simp)
    (by rw [hy]; simp) (by rw [hy]; simp)
  obtain ⟨e1, e2, e3, e4, e5, e6⟩ := hends
  rcases Props.C59_smooth mode xs (values w0 wn middle pre post pull j) (at' amax j) (by omega) (by omega) h.rising 0 (u + (pull * 2 - post))
    (at' w0.angles j) (at' wn.angles j) (by rw [h.eq]; rfl) hT rfl (by rw [hy]; exact getLast?_two _ _ _) with hc | ⟨s', hc, f1, f2, f3, f4⟩
  · rw [hs] at hc; cases hc
  · rw [hs] at hc
    cases hc
    have p1 := h.pre_pos
    have p2 := h.post_lt
    have p3 := h.pull_pos
    refine ⟨e1, e2, hpos, f1, f2, f3, f4, ?_, e4, ?_, e6⟩
    · rw [e3, initialTangent_eval, sub_zero, add_sub_cancel_left, mul_div_cancel_right₀ _ p1.ne']
    · rw [e5, finalTangent_eval]
      congr 1
      have : pull * 2 - post ≠ 0 := by linarith
      rw [show u + (pull * 2 - post) - u = pull * 2 - post by ring]
      field_simp
      ring

theorem evaluate_inside (f : Spline → ℝ → Outcome ℝ) (mode : Mode) (t : Trajectory) (j : ℕ) (s : Spline) (T time : ℝ)
    (hs : t.splines[j]? = some s) (hT : s.domain.getLast? = some T) (h0 : 0 ≤ time) (h1 : time ≤ T) :
    evaluate f mode t j time = f s time := by
  obtain ⟨hj, e⟩ := List.getElem?_eq_some_iff.1 hs
  unfold evaluate
  rw [get_ok mode _ j hj, e]
  simp only [Outcome.bind, List.getLastD_eq_getLast?, hT, Option.getD_some]
  rw [if_pos h1]
  have e1 : (0 ≤ time ∧ time ≤ T + 1 / 10000) := ⟨h0, by linarith⟩
  have e2 : (0 ≤ time ∧ time ≤ T) := ⟨h0, h1⟩
  simp only [decide_eq_true e1, decide_eq_true e2]
  cases mode <;> rfl

theorem evaluate_after (f : Spline → ℝ → Outcome ℝ) (mode : Mode) (t : Trajectory) (j : ℕ) (s : Spline) (T time : ℝ)
    (hs : t.splines[j]? = some s) (hT : s.domain.getLast? = some T) (h0 : 0 ≤ T) (h1 : T < time)
    (h2 : mode = .release ∨ time ≤ T + 1 / 10000) : evaluate f mode t j time = f s T := by
  obtain ⟨hj, e⟩ := List.getElem?_eq_some_iff.1 hs
  unfold evaluate
  rw [get_ok mode _ j hj, e]
  simp only [Outcome.bind, List.getLastD_eq_getLast?, hT, Option.getD_some]
  rw [if_neg (not_le.2 h1)]
  have e2 : (0 ≤ T ∧ T ≤ T) := ⟨h0, le_refl _⟩
  simp only [decide_eq_true e2]
  cases mode
  · have e1 : (0 ≤ time ∧ time ≤ T + 1 / 10000) := ⟨by linarith, h2.resolve_left (by simp)⟩
    simp only [decide_eq_true e1]
    rfl
  · rfl

theorem evaluate_outside (f : Spline → ℝ → Outcome ℝ) (t : Trajectory) (j : ℕ) (s : Spline) (T time : ℝ)
    (hs : t.splines[j]? = some s) (hT : s.domain.getLast? = some T) (h : time < 0 ∨ T + 1 / 10000 < time) :
    evaluate f .debug t j time = .throw .outOfRange := by
  obtain ⟨hj, e⟩ := List.getElem?_eq_some_iff.1 hs
  unfold evaluate
  rw [get_ok .debug _ j hj, e]
  simp only [Outcome.bind, List.getLastD_eq_getLast?, hT, Option.getD_some]
  have e1 : ¬ (0 ≤ time ∧ time ≤ T + 1 / 10000) := by rintro ⟨a, b⟩; rcases h with h | h <;> linarith
  simp only [decide_eq_false e1]
  rfl

theorem evaluate_beyond (f : Spline → ℝ → Outcome ℝ) (mode : Mode) (t : Trajectory) (j : ℕ) (time : ℝ)
    (hj : t.splines.length ≤ j) : evaluate f mode t j time = CubicSpline.beyond mode := by
  unfold evaluate
  cases mode <;> simp [Arr.get, Arr.rawGet, assertThrow, Nat.not_lt.2 hj, Outcome.bind, CubicSpline.beyond, bind,
    List.getElem?_eq_none hj]

/-- The call is refused, or goes on with waypoints that are ready. -/
theorem entered (mode : Mode) (d : ℕ) (amax : List ℝ) (ws : List WayPoint) (hf : ∀ w ∈ ws, Fits d w) :
    (validate ws 2 = .ok false ∧ ∀ passes, linearSplineInterpolation mode d amax passes ws = some (.throw .configurationError)) ∨
    (validate ws 2 = .ok true ∧ (∃ i, ∃ w next : WayPoint, Segment ws i w next ∧ w.duration ≤ 0 ∧ ∀ j a b r, Moves w next j a b r → a = b) ∧
      ∀ passes, linearSplineInterpolation mode d amax passes ws = some (.throw .configurationError)) ∨
    (validate ws 2 = .ok true ∧ (¬ ∃ i, ∃ w next : WayPoint, Segment ws i w next ∧ w.duration ≤ 0 ∧ ∀ j a b r, Moves w next j a b r → a = b) ∧
      ∃ ws', Ready d ws' ∧ List.Forall₂ Kept ws ws' ∧
        ∀ passes, linearSplineInterpolation mode d amax passes ws = constrainLoop mode d amax passes ws') := by
  have hv : validate ws 2 = .ok false ∨ validate ws 2 = .ok true := by
    unfold validate
    split
    · exact Or.inl rfl
    next h1 =>
      split
      next h2 => rw [h2] at h1; simp at h1
      next h2 =>
        split
        · exact Or.inr rfl
        · exact Or.inl rfl
  rcases hv with hv | hv
  · left
    refine ⟨hv, fun passes => ?_⟩
    unfold linearSplineInterpolation
    rw [hv]
  right
  obtain ⟨ws', ok, hi, hl, hk, hg, hbad⟩ := Props.C69_durations_partial mode d 2 ws hf hv
  cases ok with
  | false =>
    left
    refine ⟨hv, hbad.1 rfl, fun passes => ?_⟩
    unfold linearSplineInterpolation
    rw [hv, hi]
  | true =>
    right
    have hk' : List.Forall₂ Kept ws ws' := by
      rw [List.forall₂_iff_get]
      refine ⟨hl.symm, fun i h1 h2 => ?_⟩
      obtain ⟨t, e, ht⟩ := hk i ws[i] (List.getElem?_eq_getElem h1)
      rw [List.getElem?_eq_getElem h2] at e
      simp only [List.get_eq_getElem]
      rw [Option.some.inj e]
      exact ⟨rfl, rfl, ht, Or.inl ⟨rfl, rfl⟩⟩
    obtain ⟨h2, hne, hpos⟩ := Props.positive_of_valid hv
    refine ⟨hv, fun h => by simpa using hbad.2 h, ws', ?_, hk', fun passes => ?_⟩
    · refine ⟨hl ▸ h2, ?_, ?_⟩
      · intro w' hw'
        obtain ⟨i, hi', e⟩ := List.getElem_of_mem hw'
        obtain ⟨w, h1, h2⟩ := kept_get hk' i w' (by rw [List.getElem?_eq_getElem hi', e])
        have hfw := hf w (List.mem_of_getElem? h1)
        refine ⟨h2.angles ▸ hfw.1, h2.nominal ▸ hfw.2.1, ?_⟩
        rcases h2.rates with ⟨e1, -⟩ | ⟨-, e1, -⟩
        · rw [e1]; exact hfw.2.2
        · rw [e1, List.length_replicate]; exact hfw.1
      · intro i w' hw' hi'
        obtain ⟨w, h1, h3⟩ := kept_get hk' i w' hw'
        obtain ⟨next, hnx⟩ : ∃ next, ws[i + 1]? = some next := ⟨ws[i + 1], List.getElem?_eq_getElem (by omega)⟩
        obtain ⟨t, e, ht, -⟩ := hg rfl i w next ⟨h1, hnx⟩
        rw [hw'] at e
        cases e
        refine ⟨ht, fun r hr => ?_⟩
        obtain ⟨j, hj, e⟩ := List.getElem_of_mem hr
        have fw := hf w (List.mem_of_getElem? h1)
        have fn := hf next (List.mem_of_getElem? hnx)
        have hj' : j < d := by rw [← fw.2.1]; exact hj
        have ja : j < w.angles.length := by rw [fw.1]; exact hj'
        have jb : j < next.angles.length := by rw [fn.1]; exact hj'
        refine hpos i w next j w.angles[j] next.angles[j] r ⟨h1, hnx⟩ ⟨?_, ?_, ?_⟩
        · exact List.getElem?_eq_getElem ja
        · exact List.getElem?_eq_getElem jb
        · rw [← e]; exact List.getElem?_eq_getElem hj
    · unfold linearSplineInterpolation
      rw [hv, hi]

/-- A call of `finish` with what was laid out. -/
theorem Laid.finish {mode : Mode} {d : ℕ} {amax : List ℝ} {w0 wn : WayPoint} {middle : List WayPoint} {l : List Spline}
    {xs : List ℝ} {pre : ℝ} {mid : List ℝ} {u pull post : ℝ} (L : Laid d amax w0 wn middle l xs pre mid u pull post)
    (hd : 0 < d) (ws : List WayPoint) :
    finish mode ws l = .ok ⟨ws, l, u + (pull * 2 - post)⟩ ∧ ∃ s rest, l = s :: rest := by
  have hmade := L.made
  cases l with
  | nil =>
    have := hmade.length_eq
    simp at this
    omega
  | cons s rest =>
    cases hr : List.range d with
    | nil => rw [hr] at hmade; cases hmade
    | cons j js =>
      rw [hr] at hmade
      cases hmade with
      | cons hs _ =>
        have hJ := L.joint mode hs
        refine ⟨?_, s, rest, rfl⟩
        simp only [LinearTrajectory.finish]
        simp [List.getLastD_eq_getLast?, List.headD_eq_head?_getD, hJ.head, hJ.last]

/-- What a call that returns has made. -/
theorem returned {mode : Mode} {d passes : ℕ} {amax : List ℝ} {ws : List WayPoint} {tr : Trajectory}
    (hf : ∀ w ∈ ws, Fits d w) (h : linearSplineInterpolation mode d amax passes ws = some (.ok tr)) :
    ∃ w0 middle wn l xs pre mid u pull post s rest, l = s :: rest ∧
      tr = ⟨w0 :: middle ++ [wn], l, u + (pull * 2 - post)⟩ ∧ List.Forall₂ Kept ws (w0 :: middle ++ [wn]) ∧
      Laid d amax w0 wn middle l xs pre mid u pull post ∧ w0.ratesConfigured = true ∧ wn.ratesConfigured = true := by
  rcases entered mode d amax ws hf with ⟨-, e⟩ | ⟨-, -, e⟩ | ⟨-, -, ws', hR, hk', e⟩
  · rw [e] at h; cases h
  · rw [e] at h; cases h
  rw [e] at h
  obtain ⟨w0, middle, wn, l, e, hgen, hkk, c0, cn⟩ := constrainLoop_spec mode d amax passes ws' _ hR h
  obtain ⟨g1, g2⟩ := ready_generate (hR.kept hkk)
  rcases generate_spec d amax w0 wn middle g1 g2 with ⟨k, e'⟩ | ⟨l', xs, pre, mid, u, pull, post, e', L⟩
  · rw [hgen] at e'; cases e'
  · rw [hgen] at e'
    cases e'
    have hd : 0 < d := by
      rcases Nat.eq_zero_or_pos d with rfl | hd
      · have := L.made
        rw [List.range_zero] at this
        cases this
        cases mode <;> simp [LinearTrajectory.finish, CubicSpline.beyond] at e
      · exact hd
    obtain ⟨hfin, s, rest, hl⟩ := L.finish (mode := mode) hd (w0 :: middle ++ [wn])
    rw [hfin] at e
    exact ⟨w0, middle, wn, l, xs, pre, mid, u, pull, post, s, rest, hl, Outcome.ok.inj e, kept_trans hk' hkk, L, c0, cn⟩

theorem made_get {d : ℕ} {P : ℕ → Spline → Prop} {l : List Spline} (h : List.Forall₂ P (List.range d) l) {j : ℕ} (hj : j < d) :
    ∃ s, l[j]? = some s ∧ P j s := by
  rw [List.forall₂_iff_get] at h
  obtain ⟨h1, h2⟩ := h
  rw [List.length_range] at h1
  have := h2 j (by simpa using hj) (by omega)
  refine ⟨l[j]'(by omega), List.getElem?_eq_getElem (by omega), ?_⟩
  simpa using this

theorem smooth_congr {f g f' g' f'' g'' : ℝ → Outcome ℝ} {a b : ℝ} (h : TwiceSmooth f f' f'' a b)
    (e : ∀ x ∈ Set.Icc a b, g x = f x ∧ g' x = f' x ∧ g'' x = f'' x) : TwiceSmooth g g' g'' a b := by
  obtain ⟨F, F', F'', h1, h2, h3, h4⟩ := h
  refine ⟨F, F', F'', fun x hx => ?_, h2, h3, h4⟩
  obtain ⟨e1, e2, e3⟩ := e x hx
  rw [e1, e2, e3]
  exact h1 x hx

theorem rate_kept {w w' : WayPoint} (h : Kept w w') (hc : w'.ratesConfigured = true) (j : ℕ) :
    at' w'.rates j = configuredRate w j := by
  unfold configuredRate at'
  rcases h.rates with ⟨e1, e2⟩ | ⟨e1, e2, -⟩
  · rw [if_pos (e2 ▸ hc), e1]
  · rw [e1, e2]
    simp [List.getD_eq_getElem?_getD, List.getElem?_replicate]
    split <;> rfl

/-! ## Large limits -/

theorem splineLoop_large {xs : List ℝ} {ys : ℕ → List ℝ} (hl : ∀ j, xs.length = (ys j).length) (h2 : 2 ≤ xs.length)
    (hr : xs.Pairwise (· < ·)) :
    ∀ (js : List ℕ), ∃ A : ℝ, ∀ amax : List ℝ, (∀ j ∈ js, A < |at' amax j|) → ∀ done,
      ∃ l, splineLoop xs ys amax js done = .splines l := by
  intro js
  induction js with
  | nil => exact ⟨0, fun _ _ done => ⟨done, rfl⟩⟩
  | cons j js ih =>
    obtain ⟨A, hA⟩ := ih
    obtain ⟨B, hB⟩ := Props.C59_large_bound xs (ys j) (hl j) h2 hr
    refine ⟨max A B, fun amax ha done => ?_⟩
    obtain ⟨s, hs⟩ := hB _ ((max_lt_iff.1 (ha j (by simp))).2)
    rw [splineLoop, hs]
    exact hA amax (fun k hk => (max_lt_iff.1 (ha k (by simp [hk]))).1) _

theorem pull_first {stage : ℝ → Outcome (Bool × ℝ)} {limit t : ℝ} (h : 1 / 1000 ≤ limit)
    (hs : stage (1 / 1000) = .ok (false, t)) : pull stage limit = .ok (some (1 / 1000, t)) := by
  unfold pull pullLoop
  rw [if_pos h, hs]
  rfl

/-- With large enough limits the first attempt succeeds. -/
theorem generate_large (d : ℕ) (w0 wn : WayPoint) (middle : List WayPoint)
    (hd : ∀ w ∈ w0 :: middle, 1 / 1000 ≤ w.duration) (hn : ∀ w ∈ w0 :: middle, ∀ j < d, 0 < at' w.nominal j) :
    ∃ A : ℝ, ∀ amax : List ℝ, (∀ j < d, A < |at' amax j|) → ∃ l, generate d amax w0 wn middle = .splines l := by
  have hd0 : ∀ w ∈ w0 :: middle, 0 < w.duration := fun w hw => lt_of_lt_of_le (by norm_num) (hd w hw)
  have hw0 := hd0 w0 (by simp)
  have hb := getLastD_mem w0 middle
  have hp : (0 : ℝ) < 1 / 1000 := by norm_num
  obtain ⟨pre, a1, a2, a3⟩ := preIntersect_spec w0 hp (List.range d) (w0.duration / 2) (by linarith)
    (fun j hj => hn w0 (by simp) j (List.mem_range.1 hj))
  obtain ⟨A, hA⟩ := jointsBroken_large _ (preQuintic_total w0 ((middle ++ [wn]).headD wn) hp a2 a3) (List.range d)
  obtain ⟨post, b1, b2, b3⟩ := postIntersect_spec wn ((w0 :: middle).getLastD w0).nominal hp (List.range d) 0 (le_refl 0) hp
    (fun j hj => hn _ hb j (List.mem_range.1 hj))
  obtain ⟨B, hB⟩ := jointsBroken_large _ (postQuintic_total ((w0 :: middle).getLastD w0) wn b2 b3 (hd0 _ hb)) (List.range d)
  obtain ⟨mid, u, e, hl, hr⟩ := times_shape (pre := pre) (preD := 1 / 1000 * 2 + w0.duration - pre) (post := post)
    (pd := 1 / 1000 * 2 - post) a2 (by linarith) b2 (by linarith) (ds := (w0 :: middle).map WayPoint.duration)
    (by simp) (by
      intro x hx
      obtain ⟨w, hw, rfl⟩ := List.mem_map.1 hx
      exact hd0 w hw)
  have hlen : mid.length = middle.length := by simpa using hl
  have hxl : (times pre (1 / 1000 * 2 + w0.duration - pre) post (1 / 1000 * 2 - post) ((w0 :: middle).map WayPoint.duration)).length
      = middle.length + 4 := by rw [e]; simp [hlen]
  obtain ⟨C, hC⟩ := splineLoop_large (ys := values w0 wn middle pre post (1 / 1000))
    (fun j => by rw [hxl, values_length]) (by omega) hr (List.range d)
  refine ⟨max A (max B C), fun amax ha => ?_⟩
  have hall : ∀ j ∈ List.range d, A < |at' amax j| ∧ B < |at' amax j| ∧ C < |at' amax j| := by
    intro j hj
    have := ha j (List.mem_range.1 hj)
    rw [max_lt_iff, max_lt_iff] at this
    exact this
  have s1 : preStage d amax w0 ((middle ++ [wn]).headD wn) (1 / 1000) = .ok (false, pre) := by
    unfold preStage
    rw [a1]
    simp only [Outcome.bind]
    rw [hA amax fun j hj => (hall j hj).1]
  have s2 : postStage d amax ((w0 :: middle).getLastD w0) wn (1 / 1000) = .ok (false, post) := by
    unfold postStage
    rw [b1]
    simp only [Outcome.bind]
    rw [hB amax fun j hj => (hall j hj).2.1]
  unfold generate
  simp only
  rw [pull_first (hd w0 (by simp)) s1]
  simp only
  rw [pull_first (hd _ hb) s2]
  simp only
  exact hC amax (fun j hj => (hall j hj).2.2) []

/-! ## A loop without end -/

theorem pullLoop_broken {stage : ℝ → Outcome (Bool × ℝ)} {limit : ℝ}
    (hs : ∀ pull, 0 < pull → pull ≤ limit → ∃ t, stage pull = .ok (true, t)) :
    ∀ (passes : ℕ) (pull : ℝ), 0 < pull → pullLoop stage limit passes pull = .ok none := by
  intro passes
  induction passes with
  | zero => intro pull _; rfl
  | succ passes ih =>
    intro pull hp
    rw [pullLoop]
    split
    next h =>
      obtain ⟨t, e⟩ := hs pull hp h
      rw [e]
      exact ih (pull * 2) (by linarith)
    · rfl

theorem attempts_broken {amax : ℝ} {quintic : ℕ → Outcome (ℝ × ℝ × Coeffs ℝ)}
    (hq : ∀ i, 1 ≤ i → i ≤ 5 → ∃ q, quintic i = .ok q ∧ ¬ Within amax q.1 q.2.1 q.2.2) (b : Bool) :
    attempts amax quintic 5 1 b = .ok true := by
  obtain ⟨q1, e1, n1⟩ := hq 1 (by norm_num) (by norm_num)
  obtain ⟨q2, e2, n2⟩ := hq 2 (by norm_num) (by norm_num)
  obtain ⟨q3, e3, n3⟩ := hq 3 (by norm_num) (by norm_num)
  obtain ⟨q4, e4, n4⟩ := hq 4 (by norm_num) (by norm_num)
  obtain ⟨q5, e5, n5⟩ := hq 5 (by norm_num) (by norm_num)
  simp [attempts, e1, e2, e3, e4, e5, n1, n2, n3, n4, n5, Outcome.bind]

/-- The slope of a quintic cannot drop by one within less than two seconds if its second derivative
stays below one half. -/
theorem not_within {tl tr : ℝ} {c : Coeffs ℝ} (h : tl < tr) (h2 : tr - tl < 2) (e1 : derivativeAt 5 c tl = 1)
    (e2 : derivativeAt 5 c tr = 0) : ¬ Within (1 / 2) tl tr c := by
  intro hw
  have hb := bound_of_within h.le hw
  obtain ⟨x, hx, e⟩ := exists_hasDerivAt_eq_slope (fun t => derivativeAt 5 c t) (fun t => dderivativeAt 5 c t) h
    (fun t _ => (hasDerivAt_derivativeAt 5 c t).continuousAt.continuousWithinAt)
    (fun t _ => hasDerivAt_derivativeAt 5 c t)
  simp only [e1, e2] at e
  have hv := hb x ⟨hx.1.le, hx.2.le⟩
  rw [e, abs_of_pos (by norm_num : (0 : ℝ) < 1 / 2), zero_sub, abs_div, abs_neg, abs_one, abs_of_pos (by linarith)] at hv
  rw [div_le_div_iff₀ (by linarith) (by norm_num)] at hv
  linarith

/-- One joint has to travel 1 in the last second and stop, with an acceleration of at most 1/2. -/
def hanging (t : ℝ) (b c : Bool) : List WayPoint :=
  [⟨[0], [0], [1], t, b⟩, ⟨[0], [0], [1], 1, false⟩, ⟨[1], [0], [1], 0, c⟩]

theorem hanging_post {pull : ℝ} (hp : 0 < pull) (hl : pull ≤ 1) (c : Bool) :
    ∃ t, postStage 1 [1 / 2] ⟨[0], [0], [1], 1, false⟩ ⟨[1], [0], [1], 0, c⟩ pull = .ok (true, t) := by
  refine ⟨0, ?_⟩
  have h1 : postIntersect ⟨[1], [0], [1], 0, c⟩ [1] pull (List.range 1) 0 = .ok 0 := by
    obtain ⟨y, e⟩ := post_intersection pull 1 0 1 (by norm_num)
    show postIntersect _ _ _ [0] 0 = _
    rw [postIntersect]
    have : finalTangent ⟨[1], [0], [1], 0, c⟩ pull 0 = pointSlopeForm pull 1 0 := rfl
    rw [this]
    have e' : intersection (pointSlopeForm pull 1 0)
      (pointSlopeForm 0 (at' [1] 0) (-1 * ((Math.psign (at' [0] 0) : ℤ) : ℝ) * at' [1] 0)) = _ := e
    rw [e']
    simp [Outcome.bind, postIntersect]
  unfold postStage
  rw [h1]
  simp only [Outcome.bind]
  have h2 : jointsBroken [1 / 2] (postQuintic ⟨[0], [0], [1], 1, false⟩ ⟨[1], [0], [1], 0, c⟩ pull 0) (List.range 1) false
      = .ok true := by
    show jointsBroken _ _ [0] false = _
    rw [jointsBroken, attempts_broken]
    · rfl
    · intro i hi hi5
      have i1 : (1 : ℝ) ≤ i := by exact_mod_cast hi
      have i5 : (i : ℝ) ≤ 5 := by exact_mod_cast hi5
      have hlt : (0 : ℝ) - (i : ℝ) * (1 + 0) / 10 < 0 + (i : ℝ) * (pull - 0) / 5 := by
        have : 0 < (i : ℝ) * (pull - 0) := by apply mul_pos <;> linarith
        linarith
      obtain ⟨q, hq, -, q1, -, -, q2, -⟩ := Props.C53_quintic ((0 : ℝ) - (i : ℝ) * (1 + 0) / 10)
        (eval 1 (linearInterpolation (-1) 0 0 (eval 1 (finalTangent ⟨[1], [0], [1], 0, c⟩ pull 0) 0))
          ((0 : ℝ) - (i : ℝ) * (1 + 0) / 10))
        (derivativeAt 1 (linearInterpolation (-1) 0 0 (eval 1 (finalTangent ⟨[1], [0], [1], 0, c⟩ pull 0) 0))
          ((0 : ℝ) - (i : ℝ) * (1 + 0) / 10)) 0
        (0 + (i : ℝ) * (pull - 0) / 5)
        (eval 1 (finalTangent ⟨[1], [0], [1], 0, c⟩ pull 0) (0 + (i : ℝ) * (pull - 0) / 5))
        (derivativeAt 1 (finalTangent ⟨[1], [0], [1], 0, c⟩ pull 0) (0 + (i : ℝ) * (pull - 0) / 5)) 0 hlt.ne
      refine ⟨((0 : ℝ) - (i : ℝ) * (1 + 0) / 10, 0 + (i : ℝ) * (pull - 0) / 5, q), ?_, ?_⟩
      · unfold postQuintic
        simp only [at', List.getD_cons_zero]
        rw [hq]
        rfl
      · refine not_within hlt (by nlinarith) ?_ ?_
        · rw [q1, (line_eval _ _).2.1]
          simp only [linearInterpolation]
          rw [finalTangent_eval]
          simp [ofList, at']
        · rw [q2, (line_eval _ _).2.1]
          rfl
  rw [h2]

theorem hanging_generate (t : ℝ) (ht : 0 < t) (b c : Bool) :
    generateFor 1 [1 / 2] (hanging t b c) = .data 0 := by
  show generateFor 1 [1 / 2] (⟨[0], [0], [1], t, b⟩ :: [⟨[0], [0], [1], 1, false⟩] ++ [⟨[1], [0], [1], 0, c⟩]) = _
  rw [generateFor_eq]
  have c1 : configure ⟨[0], [0], [1], t, b⟩ = ⟨[0], [0], [1], t, true⟩ := by cases b <;> rfl
  have c2 : configure ⟨[1], [0], [1], 0, c⟩ = ⟨[1], [0], [1], 0, true⟩ := by cases c <;> rfl
  rw [c1, c2]
  unfold generate
  simp only
  rcases pullLoop_spec (P := fun _ x => 0 < x ∧ x ≤ t / 2)
    (fun pull hp => preStage_spec 1 [1 / 2] (⟨[0], [0], [1], t, true⟩ : WayPoint)
      (([(⟨[0], [0], [1], 1, false⟩ : WayPoint)] ++ [(⟨[1], [0], [1], 0, true⟩ : WayPoint)]).headD ⟨[1], [0], [1], 0, true⟩) ht
      (fun j hj => by
        have : j = 0 := by omega
        subst this
        show (0 : ℝ) < 1
        norm_num) hp) t
    (⌈1000 * t⌉₊ + 1) (1 / 1000) (by norm_num) with h1 | ⟨pp, pre, h1, -⟩
  · unfold pull
    rw [h1]
  · have h2 : pullLoop (postStage 1 [1 / 2] ⟨[0], [0], [1], 1, false⟩ ⟨[1], [0], [1], 0, true⟩) 1 (⌈(1000 : ℝ) * 1⌉₊ + 1) (1 / 1000)
        = .ok none := pullLoop_broken (fun p hp hl => hanging_post hp hl true) _ _ (by norm_num)
    unfold pull
    rw [h1]
    simp only
    have e : List.getLastD [(⟨[0], [0], [1], t, true⟩ : WayPoint), ⟨[0], [0], [1], 1, false⟩] ⟨[0], [0], [1], t, true⟩ =
      ⟨[0], [0], [1], 1, false⟩ := rfl
    rw [e]
    simp only
    rw [h2]

theorem hanging_loop (mode : Mode) : ∀ (passes : ℕ) (t : ℝ) (b c : Bool), 0 < t →
    constrainLoop mode 1 [1 / 2] passes (hanging t b c) = none := by
  intro passes
  induction passes with
  | zero => intro t b c _; rfl
  | succ passes ih =>
    intro t b c ht
    rw [constrainLoop, hanging_generate t ht b c]
    simp only
    have e : stretch ((hanging t b c).length - 1) 0 (configureEnds (hanging t b c)) = hanging (t * (11 / 10)) true true := by
      cases b <;> cases c <;> rfl
    rw [e]
    exact ih _ _ _ (by linarith)

end Ecl.LinearTrajectory
