import Verif.Spec.Barrier
import Mathlib.Tactic.Common

/-!
# Invariant of the threads at one endpoint
-/
set_option autoImplicit false
set_option linter.unusedSimpArgs false

namespace Ecl.SigSlots.Threads
open Ecl Ecl.Spec

/-- Count and mutex while thread `i` is at `pc`, within `n` other calls. -/
def At (s : State) (i n : Nat) : Pc → Prop
  | .called => s.count = n ∧ ((n = 0 ∧ s.owner = .nobody ∧ s.dtor = .idle) ∨ (n ≠ 0 ∧ s.owner = .thread i))
  | .tried => s.count = n ∧ s.owner = .thread i
  | .incr v => s.count = n ∧ s.owner = .thread i ∧ v = n
  | .running => s.count = n + 1 ∧ s.owner = .thread i
  | .returned => s.count = n + 1 ∧ s.owner = .thread i
  | .decr v => s.count = n + 1 ∧ s.owner = .thread i ∧ v = n + 1
  | .test v => s.count = n ∧ s.owner = .thread i ∧ v = n

/-- Nobody is inside. -/
def Empty (s : State) : Prop :=
  (∀ i, s.threads i = []) ∧ s.count = 0 ∧
    (s.owner = .nobody ∧ (s.dtor = .idle ∨ s.dtor = .waiting) ∨ s.owner = .destroyer ∧ (s.dtor = .holding ∨ s.dtor = .gone))

/-- Thread `i` is inside. -/
def One (s : State) (i : Nat) (pc : Pc) (l : List Pc) : Prop :=
  s.threads i = pc :: l ∧ (∀ j, j ≠ i → s.threads j = []) ∧ (∀ q ∈ l, q = .running) ∧ l.length < 2 ^ 32 - 1 ∧
    (s.dtor = .idle ∨ s.dtor = .waiting) ∧ At s i l.length pc

def Inv (s : State) : Prop := Empty s ∨ ∃ i pc l, One s i pc l

theorem Inv.init : Inv init := Or.inl ⟨fun _ => rfl, rfl, Or.inl ⟨rfl, Or.inl rfl⟩⟩

private theorem plusOne_eq {n : Nat} (h : n < 2 ^ 32 - 1) : plusOne n = n + 1 := by
  unfold plusOne
  omega

private theorem minusOne_eq {n : Nat} (h : n < 2 ^ 32 - 1) : minusOne (n + 1) = n := by
  unfold minusOne
  omega

private theorem others {s : State} {i : Nat} (h : ∀ j, j ≠ i → s.threads j = []) (l : List Pc) (j : Nat) (hj : j ≠ i) :
    Function.update s.threads i l j = [] := by
  rw [Function.update_of_ne hj]
  exact h j hj

theorem Inv.stepThread {mode : Mode} {s : State} (h : Inv s) (i : Nat) :
    ∃ s', stepThread mode s i = .ok s' ∧ Inv s' := by
  rcases h with h | ⟨k, pc, l, h1, h2, h3, h4, h5, h6⟩
  · refine ⟨s, ?_, Or.inl h⟩
    unfold Threads.stepThread
    rw [h.1 i]
  · by_cases hik : i = k
    · subst hik
      have hg : s.dtor ≠ .gone := by rcases h5 with h | h <;> rw [h] <;> decide
      cases pc with
      | called =>
        refine ⟨{ s with threads := Function.update s.threads i (.tried :: l), owner := .thread i }, ?_,
          Or.inr ⟨i, .tried, l, by simp, others h2 _, h3, h4, h5, h6.1, rfl⟩⟩
        unfold Threads.stepThread
        rw [h1]
        simp only [if_neg hg]
        rcases h6.2 with h | h
        · rw [if_pos h.2.1]
        · rw [h.2, if_neg (by simp)]
      | tried =>
        refine ⟨{ s with threads := Function.update s.threads i (.incr s.count :: l) }, ?_, Or.inr ⟨i, .incr s.count, l, ?_, others h2 _, h3, h4, h5, h6.1, h6.2, h6.1⟩⟩
        · unfold Threads.stepThread
          rw [h1]
          simp only [if_neg hg]
        · simp
      | incr v =>
        obtain ⟨ha, hb, hv⟩ := h6
        refine ⟨{ s with threads := Function.update s.threads i (.running :: l), count := plusOne v }, ?_, Or.inr ⟨i, .running, l, ?_, others h2 _, h3, h4, h5, ?_, ?_⟩⟩
        rotate_left 2
        · exact (by rw [hv, plusOne_eq h4] : plusOne v = l.length + 1)
        · exact hb
        · unfold Threads.stepThread
          rw [h1]
          simp only [if_neg hg]
        · simp
      | running =>
        refine ⟨{ s with threads := Function.update s.threads i (.returned :: l) }, ?_, Or.inr ⟨i, .returned, l, ?_, others h2 _, h3, h4, h5, h6⟩⟩
        · unfold Threads.stepThread
          rw [h1]
          simp only [if_neg hg]
        · simp
      | returned =>
        refine ⟨{ s with threads := Function.update s.threads i (.decr s.count :: l) }, ?_, Or.inr ⟨i, .decr s.count, l, ?_, others h2 _, h3, h4, h5, h6.1, h6.2, h6.1⟩⟩
        · unfold Threads.stepThread
          rw [h1]
          simp only [if_neg hg]
        · simp
      | decr v =>
        obtain ⟨ha, hb, hv⟩ := h6
        refine ⟨{ s with threads := Function.update s.threads i (.test (minusOne v) :: l), count := minusOne v }, ?_, Or.inr ⟨i, .test (minusOne v), l, ?_, others h2 _, h3, h4, h5, ?_, ?_, ?_⟩⟩
        rotate_left 2
        · exact (by rw [hv, minusOne_eq h4] : minusOne v = l.length)
        · exact hb
        · exact (by rw [hv, minusOne_eq h4] : minusOne v = l.length)
        · unfold Threads.stepThread
          rw [h1]
          simp only [if_neg hg]
        · simp
      | test v =>
        obtain ⟨ha, hb, hv⟩ := h6
        cases l with
        | nil =>
          refine ⟨{ s with threads := Function.update s.threads i [], owner := .nobody }, ?_, Or.inl ⟨?_, ha, Or.inl ⟨rfl, h5⟩⟩⟩
          · unfold Threads.stepThread
            rw [h1]
            simp only [if_neg hg]
            rw [if_pos (show v = 0 from hv)]
            unfold unlock
            simp only
            rw [if_pos hb]
          · intro j
            by_cases hj : j = i
            · subst hj
              simp
            · exact others h2 _ j hj
        | cons q l =>
          have hq : q = .running := h3 q (by simp)
          subst hq
          refine ⟨{ s with threads := Function.update s.threads i (.running :: l) }, ?_,
            Or.inr ⟨i, .running, l, by simp, others h2 _, fun q hq => h3 q (by simp [hq]), ?_, h5, ha, hb⟩⟩
          · unfold Threads.stepThread
            rw [h1]
            simp only [if_neg hg]
            rw [if_neg (by simp at hv; omega)]
          · simp at h4 ⊢
            omega
    · refine ⟨s, ?_, Or.inr ⟨k, pc, l, h1, h2, h3, h4, h5, h6⟩⟩
      unfold Threads.stepThread
      rw [h2 i hik]

theorem Inv.step {mode : Mode} {s : State} (h : Inv s) (e : Event) (ho : Orderly s e) :
    ∃ s', step mode s e = .ok s' ∧ Inv s' := by
  cases e with
  | step i => exact h.stepThread i
  | call i =>
    obtain ⟨ha, hb, hc⟩ := ho
    rcases h with h | ⟨k, pc, l, h1, h2, h3, h4, h5, h6⟩
    · refine ⟨{ s with threads := Function.update s.threads i [.called] }, ?_, Or.inr ⟨i, .called, [], by simp, ?_, by simp, by simp, ?_, h.2.1, ?_⟩⟩
      · simp only [Threads.step, h.1 i]
      · exact others (fun j _ => h.1 j) _
      · exact Or.inl (hb.resolve_right (fun hn => hn (h.1 i)))
      · have hd : s.dtor = .idle := hb.resolve_right (fun hn => hn (h.1 i))
        refine Or.inl ⟨rfl, ?_, hd⟩
        rcases h.2.2 with h | h
        · exact h.1
        · rw [hd] at h
          simp at h
    · have hik : i = k := by
        by_contra hik
        have := ha k (fun h => hik h.symm)
        unfold Outside at this
        rw [h1] at this
        simp at this
      subst hik
      cases pc with
      | running =>
        refine ⟨{ s with threads := Function.update s.threads i (.called :: .running :: l) }, ?_,
          Or.inr ⟨i, .called, .running :: l, by simp, others h2 _, ?_, ?_, h5, h6.1, Or.inr ⟨by simp, h6.2⟩⟩⟩
        · simp only [Threads.step, h1]
        · intro q hq
          rcases List.mem_cons.1 hq with h | h
          · exact h
          · exact h3 q h
        · rw [h1] at hc
          exact hc
      | _ =>
        refine ⟨s, ?_, Or.inr ⟨i, _, l, h1, h2, h3, h4, h5, h6⟩⟩
        simp only [Threads.step, h1]
  | destroy =>
    by_cases hd : s.dtor = .idle
    · refine ⟨{ s with dtor := .waiting }, by simp [Threads.step, hd], ?_⟩
      rcases h with h | ⟨k, pc, l, h1, h2, h3, h4, h5, h6⟩
      · refine Or.inl ⟨h.1, h.2.1, Or.inl ⟨?_, Or.inr rfl⟩⟩
        rcases h.2.2 with h | h
        · exact h.1
        · rw [hd] at h
          simp at h
      · refine Or.inr ⟨k, pc, l, h1, h2, h3, h4, Or.inr rfl, ?_⟩
        cases pc with
        | called =>
          refine ⟨h6.1, ?_⟩
          rcases h6.2 with h | h
          · exfalso
            apply ho k
            rw [h1, List.length_eq_zero_iff.1 h.1]
          · exact Or.inr h
        | _ => exact h6
    · exact ⟨s, by simp [Threads.step, hd], h⟩
  | proceed =>
    rcases h with h | ⟨k, pc, l, h1, h2, h3, h4, h5, h6⟩
    · obtain ⟨ha, hb, hc⟩ := h
      rcases hc with ⟨ho, hd | hd⟩ | ⟨ho, hd | hd⟩
      · exact ⟨s, by simp [Threads.step, hd], Or.inl ⟨ha, hb, Or.inl ⟨ho, Or.inl hd⟩⟩⟩
      · exact ⟨{ s with owner := .destroyer, dtor := .holding }, by simp only [Threads.step, hd, if_pos ho], Or.inl ⟨ha, hb, Or.inr ⟨rfl, Or.inl rfl⟩⟩⟩
      · exact ⟨{ s with dtor := .gone }, by simp only [Threads.step, hd], Or.inl ⟨ha, hb, Or.inr ⟨ho, Or.inr rfl⟩⟩⟩
      · exact ⟨s, by simp [Threads.step, hd], Or.inl ⟨ha, hb, Or.inr ⟨ho, Or.inr hd⟩⟩⟩
    · refine ⟨s, ?_, Or.inr ⟨k, pc, l, h1, h2, h3, h4, h5, h6⟩⟩
      rcases h5 with hd | hd
      · simp [Threads.step, hd]
      · have ho : s.owner ≠ .nobody := by
          cases pc with
          | called =>
            rcases h6.2 with h | h
            · rw [hd] at h
              simp at h
            · rw [h.2]
              simp
          | tried => rw [h6.2]; simp
          | running => rw [h6.2]; simp
          | returned => rw [h6.2]; simp
          | incr v => rw [h6.2.1]; simp
          | decr v => rw [h6.2.1]; simp
          | test v => rw [h6.2.1]; simp
        simp [Threads.step, hd, ho]

theorem Inv.run {mode : Mode} : ∀ (es : List Event) {s : State}, Inv s → AllOrderly mode s es →
    ∃ s', run mode s es = .ok s' ∧ Inv s'
  | [], s, h, _ => ⟨s, rfl, h⟩
  | e :: es, s, h, ho => by
    obtain ⟨s', h1, h2⟩ := h.step (mode := mode) e ho.1
    obtain ⟨s'', h3, h4⟩ := Inv.run es h2 (ho.2 s' h1)
    exact ⟨s'', by rw [Threads.run, h1]; exact h3, h4⟩

/-- Whatever the threads do: past its barrier the destructor holds the mutex. -/
theorem holds_step {mode : Mode} {s s' : State} (h : s.dtor = .holding ∨ s.dtor = .gone → s.owner = .destroyer)
    (e : Event) (hs : step mode s e = .ok s') : s'.dtor = .holding ∨ s'.dtor = .gone → s'.owner = .destroyer := by
  cases e with
  | call i =>
    simp only [Threads.step] at hs
    split at hs <;> cases hs <;> exact h
  | destroy =>
    simp only [Threads.step] at hs
    cases hs
    split
    · intro hd
      simp at hd
    · exact h
  | proceed =>
    simp only [Threads.step] at hs
    split at hs
    · rename_i hd
      cases hs
      split
      · intro _
        rfl
      · exact h
    · rename_i hd
      cases hs
      intro _
      exact h (Or.inl hd)
    · cases hs
      exact h
  | step i =>
    simp only [Threads.step, stepThread] at hs
    split at hs
    · cases hs
      exact h
    · split at hs
      · cases hs
      · split at hs
        · cases hs
          intro hd
          have := h hd
          simp [this]
        all_goals try (cases hs; exact h)
        rename_i v _
        split at hs
        · unfold unlock at hs
          simp only at hs
          split at hs
          · rename_i ho
            cases hs
            intro hd
            have := h hd
            rw [ho] at this
            cases this
          · cases mode <;> cases hs
        · cases hs
          exact h

theorem holds_run {mode : Mode} : ∀ (es : List Event) {s s' : State},
    (s.dtor = .holding ∨ s.dtor = .gone → s.owner = .destroyer) → run mode s es = .ok s' →
    (s'.dtor = .holding ∨ s'.dtor = .gone → s'.owner = .destroyer)
  | [], s, s', h, hr => by cases hr; exact h
  | e :: es, s, s', h, hr => by
    rw [Threads.run] at hr
    cases hs : step mode s e with
    | ok t =>
      rw [hs] at hr
      exact holds_run es (holds_step h e hs) hr
    | throw f => rw [hs] at hr; cases hr
    | ub => rw [hs] at hr; cases hr

end Ecl.SigSlots.Threads
