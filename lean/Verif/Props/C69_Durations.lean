import Verif.Lemmas.Manipulator
import Mathlib.Tactic.NormNum
import Mathlib.Algebra.Order.BigOperators.Group.List

/-! # C69: durations of waypoints -/
set_option autoImplicit false
set_option linter.unusedSimpArgs false

namespace Ecl.Props
open Ecl Ecl.Manip Ecl.Spec

theorem positive_of_valid {ws : List WayPoint} {k : ℕ} (h : validate ws k = .ok true) :
    k ≤ ws.length ∧ ws ≠ [] ∧ ∀ i w next j a b r, Segment ws i w next → Moves w next j a b r → 0 < r := by
  unfold validate at h
  split at h
  · cases h
  next h1 =>
    split at h
    · cases h
    next h2 =>
      split at h
      next h3 =>
        refine ⟨not_lt.1 h1, h2, ?_⟩
        intro i w next j a b r hs hm
        obtain ⟨e1, e2⟩ := List.getElem?_eq_some_iff.1 hs.2
        have hlen : i < ws.dropLast.length := by rw [List.length_dropLast]; omega
        have hw : w ∈ ws.dropLast := by
          obtain ⟨e3, e4⟩ := List.getElem?_eq_some_iff.1 hs.1
          rw [← e4, ← List.getElem_dropLast hlen]
          exact List.getElem_mem hlen
        have := h3 w hw r (List.mem_of_getElem? hm.2.2)
        exact not_le.1 this
      · cases h

/-- **C69.** After validated waypoints of the right dimension: the call does not fail; it changes nothing
but durations and shortens none, also when it reports failure; after success every segment takes a
positive time, in which every joint reaches the next waypoint at its nominal rate, and which is not
longer than before unless some joint needs it; and it reports failure exactly when some segment has no
positive duration and no joint moves on it. -/
theorem C69_durations_partial (mode : Mode) (dim k : ℕ) (ws : List WayPoint) (hf : ∀ w ∈ ws, Fits dim w)
    (hv : validate ws k = .ok true) :
    ∃ ws' ok, initialiseDurations mode dim ws = .ok ws' ok ∧ ws'.length = ws.length ∧
      (∀ (i : ℕ) (w : WayPoint), ws[i]? = some w → ∃ t, ws'[i]? = some { w with duration := t } ∧ w.duration ≤ t) ∧
      (ok = true → ∀ i w next, Segment ws i w next →
        ∃ t, ws'[i]? = some { w with duration := t } ∧ 0 < t ∧ LongEnough w next t ∧
          (t = w.duration ∨ Needed w next t)) ∧
      (ok = false ↔ ∃ i, ∃ w next : WayPoint, Segment ws i w next ∧ w.duration ≤ 0 ∧
        ∀ j a b r, Moves w next j a b r → a = b) := by
  obtain ⟨-, hne, hpos⟩ := positive_of_valid hv
  obtain ⟨ws', b, h, R⟩ := segmentLoop_spec mode dim ws hf
  refine ⟨ws', b, by unfold initialiseDurations; rw [if_neg hne]; exact h, R.len, R.kept, ?_, ?_⟩
  · intro hb i w next hs
    obtain ⟨t, h1, h2, h3, h4⟩ := R.good hb i w next hs
    refine ⟨t, h1, h2, ?_, ?_⟩
    · intro j a b r hm
      have hr := hpos i w next j a b r hs hm
      have := h3 j a b r hm hr.ne'
      rw [div_le_iff₀ hr] at this
      linarith
    · rcases h4 with h4 | ⟨j, a, c, r, hm, hr, he⟩
      · exact Or.inl h4
      · refine Or.inr ⟨j, a, c, r, hm, hr, ?_⟩
        rw [← he]; field_simp
  · rw [R.bad]
    constructor
    · rintro ⟨i, w, next, hs, hd, hall⟩
      refine ⟨i, w, next, hs, hd, ?_⟩
      intro j a b r hm
      have hr := hpos i w next j a b r hs hm
      have h1 := hall j a b r hm hr.ne'
      have h2 : 0 ≤ |b - a| / r := div_nonneg (abs_nonneg _) hr.le
      have h3 : |b - a| / r = 0 := le_antisymm h1 h2
      rcases div_eq_zero_iff.1 h3 with h4 | h4
      · have := abs_eq_zero.1 h4; linarith
      · exact absurd h4 hr.ne'
    · rintro ⟨i, w, next, hs, hd, hall⟩
      refine ⟨i, w, next, hs, hd, ?_⟩
      intro j a b r hm _
      rw [hall j a b r hm]; simp

/-- Without the validation, which `tensionSplineInterpolation` ignores in release builds, success does not
mean that the time suffices: a joint with the nominal rate 0 is passed over. -/
theorem C69_fails_unvalidated :
    ¬ (∀ (mode : Mode) (dim : ℕ) (ws ws' : List WayPoint), (∀ w ∈ ws, Fits dim w) →
      initialiseDurations mode dim ws = .ok ws' true →
      ∀ i w next t, Segment ws i w next → ws'[i]? = some { w with duration := t } → LongEnough w next t) := by
  intro h
  let w0 : WayPoint := ⟨[0], [0], [0], 1, false⟩
  let w1 : WayPoint := ⟨[5], [0], [0], 0, false⟩
  have hf : ∀ w ∈ [w0, w1], Fits 1 w := by
    intro w hw
    simp only [List.mem_cons, List.not_mem_nil, or_false] at hw
    rcases hw with rfl | rfl <;> exact ⟨rfl, rfl, rfl⟩
  obtain ⟨ws', b, h1, R⟩ := segmentLoop_spec .release 1 [w0, w1] hf
  have hb : b = true := by
    cases b with
    | true => rfl
    | false =>
      obtain ⟨i, w, next, hs, hd, -⟩ := R.bad.1 rfl
      exfalso
      cases i with
      | zero =>
        have : w0 = w := by simpa [Segment] using hs.1
        rw [← this] at hd
        simp only [w0] at hd; linarith
      | succ i => simp [Segment] at hs
  subst hb
  have hs : Segment [w0, w1] 0 w0 w1 := ⟨rfl, rfl⟩
  obtain ⟨t, h2, -, -, -⟩ := R.good rfl 0 w0 w1 hs
  have := h .release 1 [w0, w1] ws' hf (by unfold initialiseDurations; rw [if_neg (by simp)]; exact h1) 0 w0 w1 t hs h2
    0 0 5 0 ⟨rfl, rfl, rfl⟩
  norm_num at this

/-- Without waypoints the call is undefined; validation for at least one waypoint refuses that. -/
theorem C69_empty (mode : Mode) (dim k : ℕ) (hk : 0 < k) :
    initialiseDurations mode dim [] = .ub ∧ validate [] k = .ok false := by
  refine ⟨by simp [initialiseDurations], ?_⟩
  unfold validate; rw [if_pos (by simpa using hk)]

/-- Two waypoints that pass the validation: the second joint needs three seconds. -/
example : ∃ t ws', initialiseDurations .release 2
    [⟨[0, 0], [0, 0], [1, 2], 1, false⟩, ⟨[1, 6], [0, 0], [0, 0], 0, false⟩] = .ok ws' true ∧
    ws'[0]? = some ⟨[0, 0], [0, 0], [1, 2], t, false⟩ ∧ 3 ≤ t := by
  have hv : validate [⟨[0, 0], [0, 0], [1, 2], 1, false⟩, ⟨[1, 6], [0, 0], [0, 0], 0, false⟩] 2 = .ok true := by
    unfold validate
    rw [if_neg (by simp), if_neg (by simp), if_pos]
    intro w hw r hr
    simp at hw; subst hw
    simp at hr
    rcases hr with rfl | rfl <;> norm_num
  obtain ⟨ws', ok, h1, -, -, h4, h5⟩ := C69_durations_partial .release 2 2 _ (by
    intro w hw
    simp only [List.mem_cons, List.not_mem_nil, or_false] at hw
    rcases hw with rfl | rfl <;> exact ⟨rfl, rfl, rfl⟩) hv
  cases ok with
  | true =>
    obtain ⟨t, e1, -, e2, -⟩ := h4 rfl 0 _ _ ⟨rfl, rfl⟩
    refine ⟨t, ws', h1, e1, ?_⟩
    have := e2 1 0 6 2 ⟨rfl, rfl, rfl⟩
    rw [abs_of_pos (by norm_num)] at this
    linarith
  | false =>
    obtain ⟨i, w, next, hs, hd, -⟩ := h5.1 rfl
    exfalso
    cases i with
    | zero =>
      have : (⟨[0, 0], [0, 0], [1, 2], 1, false⟩ : WayPoint) = w := by simpa using hs.1
      rw [← this] at hd
      simp only at hd; linarith
    | succ i => simp [Segment] at hs

/-- The total duration is the sum of the segments': the duration stored with the last waypoint does not count,
and a waypoint put in front adds its own. -/
theorem C69_total_sum (w v : WayPoint) (ws : List WayPoint) :
    totalDuration [] = 0 ∧ totalDuration [w] = 0 ∧ totalDuration (w :: v :: ws) = w.duration + totalDuration (v :: ws) := by
  simp [totalDuration]

example : totalDuration [⟨[0], [0], [1], 2, false⟩, ⟨[1], [0], [1], 3, false⟩, ⟨[4], [0], [1], 100, false⟩] = 5 := by
  rw [(C69_total_sum _ _ _).2.2, (C69_total_sum _ _ []).2.2, (C69_total_sum _ ⟨[0], [0], [1], 2, false⟩ []).2.1]
  norm_num

/-- The total duration does not shrink. -/
theorem C69_total (mode : Mode) (dim k : ℕ) (ws ws' : List WayPoint) (b : Bool) (hf : ∀ w ∈ ws, Fits dim w)
    (hv : validate ws k = .ok true) (h : initialiseDurations mode dim ws = .ok ws' b) :
    totalDuration ws ≤ totalDuration ws' := by
  obtain ⟨ws'', b', h1, hl, hk, -⟩ := C69_durations_partial mode dim k ws hf hv
  rw [h] at h1
  cases h1
  unfold totalDuration
  apply List.Forall₂.sum_le_sum
  rw [List.forall₂_iff_get]
  refine ⟨by simp [hl], ?_⟩
  intro i h1 h2
  simp only [List.length_map, List.length_dropLast] at h1 h2
  obtain ⟨t, e1, e2⟩ := hk i ws[i] (by simp)
  obtain ⟨e3, e4⟩ := List.getElem?_eq_some_iff.1 e1
  simp only [List.get_eq_getElem, List.getElem_map, List.getElem_dropLast, e4]
  exact e2

end Ecl.Props
