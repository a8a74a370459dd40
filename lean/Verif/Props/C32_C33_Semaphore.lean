import Verif.Model.Semaphore
import Mathlib.Tactic.ByContra

/-!
# C32, C33: semaphores
-/
set_option autoImplicit false
set_option linter.unusedSimpArgs false

namespace Ecl.Props
open Ecl Ecl.Semaphore

/-- Process `p` has got past a locking call and has not finished unlocking. -/
def Holds (s : Sys) (p : Nat) : Prop := ∃ o, s.objs p = some o ∧ o.at_ ≠ .outside

/-- Correct use: only holders unlock, objects are destroyed outside, no waiting process is
interrupted by a signal, and the name is not re-created while objects made before its removal are
still around. -/
def SemLegal (s : Sys) : Nat × Act → Prop
  | (p, .unlockTest) => Holds s p
  | (p, .destroy) => ¬ Holds s p
  | (_, .interrupted) => False
  | (_, .construct) => s.name = none → ∀ q, s.objs q = none
  | _ => True

/-- Every action of an interleaving is correct use when it happens. -/
def SemAllLegal (s : Sys) : List (Nat × Act) → Prop
  | [] => True
  | x :: l => SemLegal s x ∧ ∀ r, step s x.1 x.2 = some r → SemAllLegal r.1 l

private def Inv (s : Sys) : Prop :=
  ∃ i, (∀ p o, s.objs p = some o → o.sem = i) ∧ (∀ j, s.name = some j → j = i) ∧
    (((∃ p, s.objs p ≠ none) ∨ s.name ≠ none) →
    ((s.count i = 1 ∧ ∀ p, ¬ Holds s p) ∨
      (s.count i = 0 ∧ ∀ p q, Holds s p → Holds s q → p = q)))

private theorem inv_init : Inv Sys.init := by
  refine ⟨0, ?_, ?_, ?_⟩ <;> simp [Sys.init]

private theorem holds_upd (s : Sys) (n : Option Nat) (c : Nat → Nat) (f : Nat) (p q : Nat) (o : Option Obj) :
    Holds ⟨n, c, f, Semaphore.upd s.objs p o⟩ q ↔
      if q = p then ∃ x, o = some x ∧ x.at_ ≠ .outside else Holds s q := by
  unfold Holds Semaphore.upd
  by_cases h : q = p
  · simp [h]
  · simp [h]

private theorem inv_step (s : Sys) (p : Nat) (a : Act) (hs : Inv s) (hl : SemLegal s (p, a))
    (r : Sys × Bool) (hr : step s p a = some r) : Inv r.1 := by
  obtain ⟨i, h1, h2, h3⟩ := hs
  have hsame : ∀ (c : Nat → Nat) (x : Obj) (n : Option Nat) (f : Nat), x.sem = i →
      ∀ q o, (⟨n, c, f, Semaphore.upd s.objs p (some x)⟩ : Sys).objs q = some o → o.sem = i := by
    intro c x n f hx q o
    simp only [Semaphore.upd]
    by_cases hq : q = p
    · simp only [hq, if_true, Option.some.injEq]; rintro rfl; exact hx
    · simp only [hq, if_false]; exact h1 q o
  have hdrop : ∀ (c : Nat → Nat) (n : Option Nat) (f : Nat),
      ∀ q o, (⟨n, c, f, Semaphore.upd s.objs p none⟩ : Sys).objs q = some o → o.sem = i := by
    intro c n f q o
    simp only [Semaphore.upd]
    by_cases hq : q = p
    · simp [hq]
    · simp only [hq, if_false]; exact h1 q o
  cases a with
  | construct =>
    simp only [step] at hr
    cases ho : s.objs p with
    | some x => simp [ho] at hr
    | none =>
      cases hn : s.name with
      | some j =>
        simp only [ho, hn, Option.some.injEq] at hr
        subst hr
        have hj := h2 j hn; subst hj
        refine ⟨j, hsame _ _ _ _ rfl, by intro k hk; simp [hn] at hk; omega, fun _ => ?_⟩
        have := h3 (.inr (by simp [hn]))
        rcases this with ⟨hc, hh⟩ | ⟨hc, hh⟩
        · left
          refine ⟨hc, fun q => ?_⟩
          rw [holds_upd]
          by_cases hq : q = p
          · simp [hq]
          · simpa [hq] using hh q
        · right
          refine ⟨hc, fun q q' => ?_⟩
          rw [holds_upd, holds_upd]
          by_cases hq : q = p
          · simp [hq]
          · by_cases hq' : q' = p
            · simp [hq']
            · simpa [hq, hq'] using hh q q'
      | none =>
        simp only [ho, hn, Option.some.injEq] at hr
        subst hr
        have hnone := hl hn
        refine ⟨s.fresh, ?_, by simp, fun _ => .inl ⟨by simp [Semaphore.upd], ?_⟩⟩
        · intro q o
          simp only [Semaphore.upd, hnone]
          by_cases hq : q = p
          · simp only [hq, if_true, Option.some.injEq]; rintro rfl; rfl
          · simp [hq]
        · intro q
          rw [holds_upd]
          by_cases hq : q = p
          · simp [hq]
          · simp [hq, Holds, hnone]
  | destroy =>
    simp only [step] at hr
    cases ho : s.objs p with
    | none => simp [ho] at hr
    | some x =>
      simp only [ho, Option.some.injEq] at hr
      subst hr
      refine ⟨i, hdrop _ _ _, by simp, fun _ => ?_⟩
      have := h3 (.inl ⟨p, by simp [ho]⟩)
      rcases this with ⟨hc, hh⟩ | ⟨hc, hh⟩
      · left
        refine ⟨hc, fun q => ?_⟩
        rw [holds_upd]
        by_cases hq : q = p
        · simp [hq]
        · simpa [hq] using hh q
      · right
        refine ⟨hc, fun q q' => ?_⟩
        rw [holds_upd, holds_upd]
        by_cases hq : q = p
        · simp [hq]
        · by_cases hq' : q' = p
          · simp [hq']
          · simpa [hq, hq'] using hh q q'
  | lock =>
    simp only [step] at hr
    split at hr
    · rename_i j ho
      have hj := h1 p _ ho
      simp only at hj; subst hj
      split at hr
      · cases hr
      · rename_i hc0
        simp only [Option.some.injEq] at hr
        subst hr
        refine ⟨j, hsame _ _ _ _ rfl, h2, fun _ => ?_⟩
        have := h3 (.inl ⟨p, by simp [ho]⟩)
        rcases this with ⟨hc, hh⟩ | ⟨hc, hh⟩
        · right
          refine ⟨by simp [Semaphore.upd, hc], fun q q' => ?_⟩
          rw [holds_upd, holds_upd]
          by_cases hq : q = p
          · by_cases hq' : q' = p
            · simp [hq, hq']
            · simp [hq, hq', hh]
          · simp [hq, hh]
        · exact absurd hc hc0
    · cases hr
  | interrupted => exact absurd hl (by simp [SemLegal])
  | trylock =>
    simp only [step] at hr
    split at hr
    · rename_i j ho
      have hj := h1 p _ ho
      simp only at hj; subst hj
      split at hr
      · simp only [Option.some.injEq] at hr
        subst hr
        exact ⟨j, h1, h2, h3⟩
      · rename_i hc0
        simp only [Option.some.injEq] at hr
        subst hr
        refine ⟨j, hsame _ _ _ _ rfl, h2, fun _ => ?_⟩
        have := h3 (.inl ⟨p, by simp [ho]⟩)
        rcases this with ⟨hc, hh⟩ | ⟨hc, hh⟩
        · right
          refine ⟨by simp [Semaphore.upd, hc], fun q q' => ?_⟩
          rw [holds_upd, holds_upd]
          by_cases hq : q = p
          · by_cases hq' : q' = p
            · simp [hq, hq']
            · simp [hq, hq', hh]
          · simp [hq, hh]
        · exact absurd hc hc0
    · cases hr
  | unlockTest =>
    have hhold : Holds s p := hl
    simp only [step] at hr
    cases ho : s.objs p with
    | none => simp [ho] at hr
    | some x =>
      obtain ⟨j, at_⟩ := x
      have hj := h1 p _ ho
      simp only at hj; subst hj
      have := h3 (.inl ⟨p, by simp [ho]⟩)
      rcases this with ⟨hc, hh⟩ | ⟨hc, hh⟩
      · exact absurd hhold (hh p)
      · have hin : at_ = .inside ∨ at_ = .leaving ∨ at_ = .outside := by cases at_ <;> simp
        rcases hin with rfl | rfl | rfl
        · simp only [ho, hc, Nat.zero_ne_one, if_false, Option.some.injEq] at hr
          subst hr
          refine ⟨j, hsame _ _ _ _ rfl, h2, fun _ => .inr ⟨hc, fun q q' => ?_⟩⟩
          rw [holds_upd, holds_upd]
          by_cases hq : q = p
          · by_cases hq' : q' = p
            · simp [hq, hq']
            · simp only [hq, hq', if_true, if_false]
              intro _ h; exact hh p q' hhold h
          · by_cases hq' : q' = p
            · simp only [hq, hq', if_true, if_false]
              intro h _; exact (hq (hh q p h hhold)).elim
            · simpa [hq, hq'] using hh q q'
        · simp [ho] at hr
        · obtain ⟨o, h4, h5⟩ := hhold
          rw [ho, Option.some.injEq] at h4
          subst h4
          exact absurd rfl h5
  | unlockPost =>
    simp only [step] at hr
    split at hr
    · rename_i j ho
      have hj := h1 p _ ho
      simp only at hj; subst hj
      simp only [Option.some.injEq] at hr
      subst hr
      have hhold : Holds s p := ⟨_, ho, by simp⟩
      refine ⟨j, hsame _ _ _ _ rfl, h2, fun _ => ?_⟩
      have := h3 (.inl ⟨p, by simp [ho]⟩)
      rcases this with ⟨hc, hh⟩ | ⟨hc, hh⟩
      · exact absurd hhold (hh p)
      · left
        refine ⟨by simp [Semaphore.upd, hc], fun q => ?_⟩
        rw [holds_upd]
        by_cases hq : q = p
        · simp [hq]
        · simp only [hq, if_false]
          intro h; exact hq (hh q p h hhold)
    · cases hr
  | crash =>
    simp only [step, Option.some.injEq] at hr
    subst hr
    refine ⟨i, hdrop _ _ _, h2, fun hex => ?_⟩
    have hex' : (∃ q, s.objs q ≠ none) ∨ s.name ≠ none := by
      rcases hex with ⟨q, hq⟩ | h
      · left
        refine ⟨q, ?_⟩
        simp only [Semaphore.upd] at hq
        by_cases hqp : q = p
        · simp [hqp] at hq
        · simpa [hqp] using hq
      · exact .inr h
    rcases h3 hex' with ⟨hc, hh⟩ | ⟨hc, hh⟩
    · left
      refine ⟨hc, fun q => ?_⟩
      rw [holds_upd]
      by_cases hq : q = p
      · simp [hq]
      · simpa [hq] using hh q
    · right
      refine ⟨hc, fun q q' => ?_⟩
      rw [holds_upd, holds_upd]
      by_cases hq : q = p
      · simp [hq]
      · by_cases hq' : q' = p
        · simp [hq']
        · simpa [hq, hq'] using hh q q'

private theorem inv_run (l : List (Nat × Act)) : ∀ s, Inv s → SemAllLegal s l → ∀ s', run s l = some s' →
    Inv s' := by
  induction l with
  | nil => intro s hs _ s' h; simp only [run, Option.some.injEq] at h; subst h; exact hs
  | cons x l ih =>
    obtain ⟨p, a⟩ := x
    intro s hs hl s' h
    simp only [run] at h
    cases hx : step s p a with
    | none => simp [hx] at h
    | some r =>
      simp only [hx] at h
      exact ih r.1 (inv_step s p a hs hl.1 r hx) (hl.2 r hx) s' h

/-- **C32**: in every interleaving of any number of correctly used objects in any processes,
including crashes at any point, at most one process holds the semaphore, all objects refer to the
same semaphore, and its count is 0 or 1, and 0 while someone holds it.  Missing: unlocking by
processes that do not hold it (`C32_fails_race`), interrupted waits (`C32_fails_interrupted`), and
objects made after the name was removed (`C32_fails_unlinked`). -/
theorem C32_exclusion_partial (l : List (Nat × Act)) (hl : SemAllLegal Sys.init l) (s : Sys)
    (hs : run Sys.init l = some s) :
    (∀ p q, Holds s p → Holds s q → p = q) ∧
      ∀ p o, s.objs p = some o → s.count o.sem ≤ 1 ∧ (o.at_ ≠ .outside → s.count o.sem = 0) := by
  obtain ⟨i, h1, h2, h3⟩ := inv_run l _ inv_init hl s hs
  refine ⟨?_, ?_⟩
  · intro p q hp hq
    obtain ⟨o, ho, -⟩ := id hp
    rcases h3 (.inl ⟨p, by simp [ho]⟩) with ⟨_, hh⟩ | ⟨_, hh⟩
    · exact absurd hp (hh p)
    · exact hh p q hp hq
  · intro p o ho
    have := h1 p o ho; subst this
    rcases h3 (.inl ⟨p, by simp [ho]⟩) with ⟨hc, hh⟩ | ⟨hc, hh⟩
    · refine ⟨by omega, fun h => absurd ⟨o, ho, h⟩ (hh p)⟩
    · exact ⟨by omega, fun _ => hc⟩

/-- Two processes, the second waits for the first to unlock. -/
example : ∃ s, run Sys.init [(0, .construct), (1, .construct), (0, .lock), (1, .trylock),
      (0, .unlockTest), (0, .unlockPost), (1, .lock)] = some s ∧ Holds s 1 ∧ ¬ Holds s 0 := by
  simp [run, step, Sys.init, Semaphore.upd, Holds]

example : SemAllLegal Sys.init [(0, .construct), (1, .construct), (0, .lock), (1, .trylock),
      (0, .unlockTest), (0, .unlockPost), (1, .lock)] := by
  simp [SemAllLegal, SemLegal, run, step, Sys.init, Semaphore.upd, Holds]

/-- **C32**, `trylock` never blocks: it can be carried out in every state in which the object is not
in use, reports success exactly when the count was not 0 and then takes the semaphore. -/
theorem C32_trylock (s : Sys) (p i : Nat) (h : s.objs p = some ⟨i, .outside⟩) :
    ∃ s', step s p .trylock = some (s', decide (s.count i ≠ 0)) ∧
      (s.count i = 0 → s' = s) ∧ (s.count i ≠ 0 → Holds s' p ∧ s'.count i + 1 = s.count i) := by
  by_cases hc : s.count i = 0
  · exact ⟨s, by simp [step, h, hc], fun _ => rfl, fun h' => absurd hc h'⟩
  · refine ⟨{ s with
      count := Semaphore.upd s.count i (s.count i - 1)
      objs := Semaphore.upd s.objs p (some ⟨i, .inside⟩) }, by simp [step, h, hc],
      fun h' => absurd h' hc, fun _ => ⟨⟨⟨i, .inside⟩, ?_, by simp⟩, ?_⟩⟩
    · simp [Semaphore.upd]
    · simp [Semaphore.upd]; omega

/-- **C32**, without interleaving inside `unlock`: the count stays in {0,1} even when processes
unlock what they do not hold. -/
theorem C32_atomic_unlock (s : Sys) (p i : Nat) (a : At) (h : s.objs p = some ⟨i, a⟩)
    (ha : a ≠ .leaving) (hc : s.count i ≤ 1) (s' : Sys)
    (hs : run s [(p, .unlockTest), (p, .unlockPost)] = some s' ∨
      (s.count i = 1 ∧ run s [(p, .unlockTest)] = some s')) : s'.count i = 1 := by
  rcases hs with hs | ⟨h1, hs⟩
  · have h01 : s.count i = 0 ∨ s.count i = 1 := by omega
    rcases h01 with h0 | h0 <;> cases a <;>
      simp [run, step, h, h0, Semaphore.upd] at hs ha
    all_goals subst hs; simp [h0, Semaphore.upd]
  · cases a <;> simp [run, step, h, h1, Semaphore.upd] at hs ha
    all_goals subst hs; exact h1

/-- **C32 fails**: two processes unlock at the same time, both see the count 0 and both post; then
both lock and both are inside. -/
theorem C32_fails_race : ∃ s, run Sys.init [(0, .construct), (1, .construct), (0, .lock),
      (0, .unlockTest), (1, .unlockTest), (0, .unlockPost), (1, .unlockPost),
      (0, .lock), (1, .lock)] = some s ∧ Holds s 0 ∧ Holds s 1 := by
  simp [run, step, Sys.init, Semaphore.upd, Holds]

theorem C32_fails_count : ∃ s, run Sys.init [(0, .construct), (1, .construct), (0, .lock),
      (0, .unlockTest), (1, .unlockTest), (0, .unlockPost), (1, .unlockPost)] = some s ∧
      s.count 0 = 2 := by
  simp [run, step, Sys.init, Semaphore.upd]

/-- **C32 fails**: `lock` returns without the semaphore when a signal interrupts the wait. -/
theorem C32_fails_interrupted : ∃ s, run Sys.init [(0, .construct), (1, .construct), (0, .lock),
      (1, .interrupted)] = some s ∧ Holds s 0 ∧ Holds s 1 := by
  simp [run, step, Sys.init, Semaphore.upd, Holds]

/-- **C32 fails**: destroying one object removes the name for all; a process that starts later gets
another semaphore. -/
theorem C32_fails_unlinked : ∃ s, run Sys.init [(0, .construct), (1, .construct), (1, .destroy),
      (2, .construct), (0, .lock), (2, .lock)] = some s ∧ Holds s 0 ∧ Holds s 2 := by
  simp [run, step, Sys.init, Semaphore.upd, Holds]

/-- **C33**: for every normalised current time and every nonnegative duration with fields in range,
unless the nanoseconds add up to exactly 999999999, the deadline is a valid timespec denoting the
current time plus the duration. -/
theorem C33_deadline_partial (s n ds dn : Int) (hn : 0 ≤ n ∧ n < 1000000000)
    (hd : 0 ≤ dn ∧ dn < 1000000000) (hs : 0 ≤ s) (hds : 0 ≤ ds) (hin : InLong (s + ds + 1))
    (hne : n + dn ≠ 999999999) :
    ∃ s' n', deadline s n ds dn = .ok (s', n') ∧ 0 ≤ n' ∧ n' < 1000000000 ∧
      s' * 1000000000 + n' = (s * 1000000000 + n) + (ds * 1000000000 + dn) := by
  unfold InLong longMin longMax at hin
  have h1 : InLong (s + ds) := by unfold InLong longMin longMax; omega
  have h2 : InLong (n + dn) := by unfold InLong longMin longMax; omega
  have h3 : InLong (s + ds + 1) := by unfold InLong longMin longMax; omega
  have htm : (n + dn).tmod 1000000000 = (n + dn) % 1000000000 := Int.tmod_eq_emod_of_nonneg (by omega)
  by_cases hc : n + dn ≥ 999999999
  · refine ⟨s + ds + 1, (n + dn) % 1000000000, ?_, by omega, by omega, by omega⟩
    simp only [deadline, h1, h2, h3, hc, not_true_eq_false, if_false, if_true, htm]
  · refine ⟨s + ds, (n + dn) % 1000000000, ?_, by omega, by omega, by omega⟩
    simp only [deadline, h1, h2, hc, not_true_eq_false, if_false, htm]

example : deadline 5 700000000 1 400000000 = .ok (7, 100000000) := by decide

/-- **C33 fails** whenever the nanoseconds add up to 999999999: the deadline is a second late. -/
theorem C33_fails_carry (s n ds dn : Int) (hin : InLong (s + ds)) (hin' : InLong (s + ds + 1))
    (hsum : n + dn = 999999999) : deadline s n ds dn = .ok (s + ds + 1, 999999999) := by
  have h2 : InLong 999999999 := by decide
  simp only [deadline, hin, hin', h2, hsum, not_true_eq_false, if_false, ge_iff_le, Int.le_refl,
    if_true]
  rfl

example : deadline 5 999999999 1 0 = .ok (7, 999999999) := by decide

/-- **C33 fails** for a duration of minus half a second: the timespec is not valid. -/
theorem C33_fails_negative : deadline 5 100000000 0 (-500000000) = .ok (5, -400000000) := by decide

/-- **C33**, the answer: true exactly when the wait succeeded, and nothing but true or false when it
succeeded or timed out. -/
theorem C33_answer (m : Mode) (clock : Bool) (w : Wait) :
    (timedAnswer m clock w = .ok true ↔ clock = true ∧ w = .ok) ∧
      (w = .ok ∨ w = .timedOut → ∃ b, timedAnswer m clock w = .ok b) := by
  cases m <;> cases clock <;> cases w <;> simp [timedAnswer]

end Ecl.Props
