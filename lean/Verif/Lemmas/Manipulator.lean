import Verif.Spec.Waypoints
import Mathlib.Tactic.Linarith
import Mathlib.Tactic.FieldSimp
import Mathlib.Algebra.Order.Field.Basic

/-! # Durations of segments -/
set_option autoImplicit false
set_option linter.unusedSimpArgs false

namespace Ecl.Manip
open Ecl.Spec

theorem get_ok {α : Type} (mode : Mode) (l : List α) (i : ℕ) (h : i < l.length) : Arr.get mode l i = .ok l[i] := by
  simp [Arr.get, Arr.rawGet, assertThrow, h]
  cases mode <;> rfl

/-- What the loop over the joints computes. -/
theorem jointLoop_spec (mode : Mode) (w next : WayPoint) (dim : ℕ) (hw : Fits dim w) (hn : Fits dim next) :
    ∀ (js : List ℕ) (m : ℝ), (∀ j ∈ js, j < dim) →
      ∃ m', jointLoop mode w next js m = .ok m' ∧ m ≤ m' ∧
        (∀ j ∈ js, ∀ a b r, Moves w next j a b r → r ≠ 0 → |b - a| / r ≤ m') ∧
        (m' = m ∨ ∃ j a b r, Moves w next j a b r ∧ r ≠ 0 ∧ |b - a| / r = m') := by
  intro js
  induction js with
  | nil => intro m _; exact ⟨m, rfl, le_refl _, by simp, Or.inl rfl⟩
  | cons j js ih =>
    intro m hj
    have h1 : j < next.angles.length := by rw [hn.1]; exact hj j (by simp)
    have h2 : j < w.angles.length := by rw [hw.1]; exact hj j (by simp)
    have h3 : j < w.nominal.length := by rw [hw.2.1]; exact hj j (by simp)
    have hjs : ∀ k ∈ js, k < dim := fun k hk => hj k (by simp [hk])
    have hmv : Moves w next j w.angles[j] next.angles[j] w.nominal[j] := by
      refine ⟨?_, ?_, ?_⟩ <;> simp [h1, h2, h3]
    have huniq : ∀ a b r, Moves w next j a b r → a = w.angles[j] ∧ b = next.angles[j] ∧ r = w.nominal[j] := by
      rintro a b r ⟨e1, e2, e3⟩
      simp [h1, h2, h3] at e1 e2 e3
      exact ⟨e1.symm, e2.symm, e3.symm⟩
    unfold jointLoop
    rw [get_ok mode _ j h1, get_ok mode _ j h2, get_ok mode _ j h3]
    simp only [Outcome.bind_ok]
    split
    next hr =>
      obtain ⟨m', e, hle, hall, hex⟩ := ih _ hjs
      refine ⟨m', e, ?_, ?_, ?_⟩
      · refine le_trans ?_ hle; split <;> linarith
      · intro k hk a b r hm hr'
        rcases List.mem_cons.1 hk with rfl | hk
        · obtain ⟨rfl, rfl, rfl⟩ := huniq a b r hm
          refine le_trans ?_ hle; split <;> linarith
        · exact hall k hk a b r hm hr'
      · rcases hex with h | h
        · split at h
          · exact Or.inr ⟨j, _, _, _, hmv, hr, h.symm⟩
          · exact Or.inl h
        · exact Or.inr h
    next hr =>
      obtain ⟨m', e, hle, hall, hex⟩ := ih _ hjs
      refine ⟨m', e, hle, ?_, hex⟩
      intro k hk a b r hm hr'
      rcases List.mem_cons.1 hk with rfl | hk
      · obtain ⟨rfl, rfl, rfl⟩ := huniq a b r hm
        exact absurd (not_not.1 hr) hr'
      · exact hall k hk a b r hm hr'

theorem raise_spec (w : WayPoint) (m : ℝ) :
    raiseDuration w m = { w with duration := (raiseDuration w m).duration } ∧
    (raiseDuration w m).duration = max w.duration m := by
  unfold raiseDuration
  split
  next h => exact ⟨rfl, (max_eq_right h.le).symm⟩
  next h => exact ⟨rfl, (max_eq_left (not_lt.1 h)).symm⟩

/-- What the loop over the segments computes. -/
structure Raised (dim : ℕ) (ws ws' : List WayPoint) (b : Bool) : Prop where
  len : ws'.length = ws.length
  kept : ∀ (i : ℕ) (w : WayPoint), ws[i]? = some w → ∃ t, ws'[i]? = some { w with duration := t } ∧ w.duration ≤ t
  good : b = true → ∀ (i : ℕ) (w next : WayPoint), Segment ws i w next → ∃ t, ws'[i]? = some { w with duration := t } ∧ 0 < t ∧
    (∀ j a b r, Moves w next j a b r → r ≠ 0 → |b - a| / r ≤ t) ∧
    (t = w.duration ∨ ∃ j a b r, Moves w next j a b r ∧ r ≠ 0 ∧ |b - a| / r = t)
  bad : b = false ↔ ∃ i, ∃ w next : WayPoint, Segment ws i w next ∧ w.duration ≤ 0 ∧
    ∀ j a b r, Moves w next j a b r → r ≠ 0 → |b - a| / r ≤ 0

theorem segmentLoop_spec (mode : Mode) (dim : ℕ) :
    ∀ ws : List WayPoint, (∀ w ∈ ws, Fits dim w) → ∃ ws' b, segmentLoop mode dim ws = .ok ws' b ∧ Raised dim ws ws' b := by
  intro ws
  have self : ∀ (ws : List WayPoint) (i : ℕ) (w : WayPoint), ws[i]? = some w → ∃ t, ws[i]? = some { w with duration := t } ∧ w.duration ≤ t :=
    fun ws i w h => ⟨w.duration, h, le_refl _⟩
  induction ws with
  | nil =>
    intro _
    refine ⟨[], true, rfl, rfl, self _, ?_, ?_⟩
    · intro _ i w next h; simp [Segment] at h
    · simp [Segment]
  | cons w rest ih =>
    intro hf
    cases rest with
    | nil =>
      refine ⟨[w], true, rfl, rfl, self _, ?_, ?_⟩
      · intro _ i u next h; simp [Segment] at h
      · simp [Segment]
    | cons next rest =>
      obtain ⟨m, hm, hm0, hall, hex⟩ := jointLoop_spec mode w next dim (hf w (by simp)) (hf next (by simp)) (List.range dim) 0
        (fun j hj => List.mem_range.1 hj)
      have hall' : ∀ j a b r, Moves w next j a b r → r ≠ 0 → |b - a| / r ≤ m := by
        intro j a b r hmv hr
        refine hall j ?_ a b r hmv hr
        rw [List.mem_range, ← (hf w (by simp)).1]
        exact (List.getElem?_eq_some_iff.1 hmv.1).1
      obtain ⟨r1, r2⟩ := raise_spec w m
      obtain ⟨ws', b, hrec, R⟩ := ih (fun u hu => hf u (List.mem_cons_of_mem _ hu))
      have hseg : ∀ i u v, Segment (w :: next :: rest) (i + 1) u v ↔ Segment (next :: rest) i u v := by
        intro i u v; simp [Segment]
      have hseg0 : ∀ u v, Segment (w :: next :: rest) 0 u v ↔ u = w ∧ v = next := by
        intro u v; simp [Segment, eq_comm]
      rw [segmentLoop, hm]
      simp only
      by_cases hz : (raiseDuration w m).duration = 0
      · rw [if_pos hz]
        have hd : w.duration ≤ 0 := by rw [r2] at hz; have := le_max_left w.duration m; linarith
        have hm' : m ≤ 0 := by rw [r2] at hz; have := le_max_right w.duration m; linarith
        refine ⟨_, _, rfl, rfl, ?_, by simp, ?_⟩
        · intro i u hu
          cases i with
          | zero =>
            simp at hu; subst hu
            refine ⟨(raiseDuration w m).duration, ?_, by rw [r2]; exact le_max_left _ _⟩
            simp only [List.getElem?_cons_zero]; rw [← r1]
          | succ i => exact self _ (i + 1) u hu
        · refine ⟨fun _ => ⟨0, w, next, (hseg0 _ _).2 ⟨rfl, rfl⟩, hd, ?_⟩, fun _ => rfl⟩
          intro j a b r hmv hr
          exact (hall' j a b r hmv hr).trans hm'
      · rw [if_neg hz, hrec]
        have hpos : 0 < (raiseDuration w m).duration := by
          rw [r2] at hz ⊢
          exact lt_of_le_of_ne (hm0.trans (le_max_right _ _)) (Ne.symm hz)
        refine ⟨_, _, rfl, by simp [R.len], ?_, ?_, ?_⟩
        · intro i u hu
          cases i with
          | zero =>
            simp at hu; subst hu
            refine ⟨(raiseDuration w m).duration, ?_, by rw [r2]; exact le_max_left _ _⟩
            simp only [List.getElem?_cons_zero]; rw [← r1]
          | succ i =>
            obtain ⟨t, ht⟩ := R.kept i u (by simpa using hu)
            exact ⟨t, by simpa using ht⟩
        · intro hb i u v hs
          cases i with
          | zero =>
            obtain ⟨rfl, rfl⟩ := (hseg0 u v).1 hs
            refine ⟨_, by simp only [List.getElem?_cons_zero]; rw [← r1], hpos, ?_, ?_⟩
            · intro j a b r hmv hr
              refine (hall' j a b r hmv hr).trans ?_
              rw [r2]; exact le_max_right _ _
            · rw [r2]
              rcases max_choice u.duration m with h | h
              · exact Or.inl h
              · rcases hex with h' | h'
                · exfalso; rw [r2, h, h'] at hpos; exact lt_irrefl _ hpos
                · rw [h]; exact Or.inr h'
          | succ i =>
            obtain ⟨t, ht⟩ := R.good hb i u v ((hseg i u v).1 hs)
            exact ⟨t, by simpa using ht⟩
        · rw [R.bad]
          constructor
          · rintro ⟨i, u, v, h1, h2⟩
            exact ⟨i + 1, u, v, (hseg i u v).2 h1, h2⟩
          · rintro ⟨i, u, v, h1, h2, h3⟩
            cases i with
            | zero =>
              obtain ⟨rfl, rfl⟩ := (hseg0 u v).1 h1
              exfalso
              rcases hex with h' | ⟨j, a, c, r, hmv, hr, he⟩
              · rw [r2, h', max_eq_right h2] at hpos; exact lt_irrefl _ hpos
              · have := h3 j a c r hmv hr
                rw [he] at this
                rw [r2] at hpos
                exact absurd hpos (not_lt.2 (max_le h2 this))
            | succ i => exact ⟨i, u, v, (hseg i u v).1 h1, h2, h3⟩

end Ecl.Manip
