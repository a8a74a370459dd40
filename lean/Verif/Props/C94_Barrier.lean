import Verif.Lemmas.SigSlotThreads

/-!
# C94: destroying a slot while another thread calls it
-/
set_option autoImplicit false
set_option linter.unusedSimpArgs false

namespace Ecl.Props
open Ecl Ecl.Spec Ecl.SigSlots.Threads

/-- In orderly use, in any interleaving of the threads: no undefined behaviour and no exception; when the
destructor is over no thread is in the endpoint any more; and it always gets through as soon as no thread is
inside. -/
theorem C94_barrier_partial (mode : Mode) (es : List Event) (h : AllOrderly mode init es) :
    ∃ s, run mode init es = .ok s ∧
      (s.dtor = .gone → ∀ i, Outside s i) ∧
      ((∀ i, Outside s i) → s.dtor ≠ .idle →
        ∃ s', run mode s [.proceed, .proceed] = .ok s' ∧ s'.dtor = .gone) := by
  obtain ⟨s, h1, h2⟩ := Inv.run (mode := mode) es Inv.init h
  refine ⟨s, h1, ?_, ?_⟩
  · intro hd
    rcases h2 with h | ⟨k, pc, l, hk⟩
    · exact h.1
    · have := hk.2.2.2.2.1
      rw [hd] at this
      simp at this
  · intro ho hd
    rcases h2 with h | ⟨k, pc, l, hk⟩
    · rcases h.2.2 with ⟨h3, h4 | h4⟩ | ⟨h3, h4 | h4⟩
      · exact absurd h4 hd
      · exact ⟨{ s with owner := .destroyer, dtor := .gone }, by simp only [run, step, h4, h3, if_pos, Outcome.bind_ok], rfl⟩
      · exact ⟨{ s with dtor := .gone }, by simp only [run, step, h4, Outcome.bind_ok], rfl⟩
      · exact ⟨s, by simp only [run, step, h4, Outcome.bind_ok], h4⟩
    · have := ho k
      unfold Outside at this
      rw [hk.1] at this
      cases this

/-- A slot that another thread runs, one call within another, when the destructor begins. -/
example (mode : Mode) : AllOrderly mode init
    [.call 4, .step 4, .step 4, .step 4, .call 4, .step 4, .step 4, .destroy, .proceed, .step 4] ∧
    ∃ s, run mode init [.call 4, .step 4, .step 4, .step 4, .call 4, .step 4, .step 4, .destroy, .proceed, .step 4] = .ok s ∧
      Runs s 4 ∧ s.dtor = .waiting := by
  constructor
  · refine ⟨⟨fun j _ => rfl, Or.inl rfl, by decide⟩, fun s h => ?_⟩
    cases h
    refine ⟨trivial, fun s h => ?_⟩
    cases h
    refine ⟨trivial, fun s h => ?_⟩
    cases h
    refine ⟨trivial, fun s h => ?_⟩
    cases h
    refine ⟨⟨fun j hj => ?_, Or.inl rfl, by decide⟩, fun s h => ?_⟩
    · simp [Outside, init, hj]
    cases h
    refine ⟨trivial, fun s h => ?_⟩
    cases h
    refine ⟨trivial, fun s h => ?_⟩
    cases h
    refine ⟨fun i => ?_, fun s h => ?_⟩
    · by_cases hi : i = 4
      · subst hi
        simp
      · simp [init, hi]
    cases h
    refine ⟨trivial, fun s h => ?_⟩
    cases h
    refine ⟨trivial, fun s h => ?_⟩
    trivial
  · refine ⟨_, rfl, ?_, rfl⟩
    simp [Runs]

/-- One thread is inside the function when another one calls the same slot, and the first one leaves
first: the second one unlocks a mutex that it does not hold. -/
theorem C94_fails_overlap (i j : Nat) (h : i ≠ j) :
    let es := [.call i, .step i, .step i, .step i, .call j, .step j, .step j, .step j,
      .step i, .step i, .step i, .step i, .step j, .step j, .step j, .step j]
    run .release init es = .ub ∧ run .debug init es = .throw .permissionsError := by
  have h' : j ≠ i := h.symm
  constructor <;>
  simp [run, step, stepThread, init, Function.update_apply, h, h', plusOne, minusOne, unlock]

/-- Two threads come at the same time: both load the count before either stores it.  When the first one
leaves, the count is 0 and the mutex is free; the destructor takes the slot away from under the function that
the other one runs. -/
theorem C94_fails_lost_count (mode : Mode) (i j : Nat) (h : i ≠ j) :
    ∃ s, run mode init [.call i, .step i, .call j, .step j, .step i, .step j, .step i, .step j,
        .step i, .step i, .step i, .step i, .destroy, .proceed, .proceed] = .ok s ∧
      s.dtor = .gone ∧ Runs s j ∧ step mode s (.step j) = .ub := by
  have h' : j ≠ i := h.symm
  simp [run, step, stepThread, init, Function.update_apply, h, h', plusOne, minusOne, unlock, Runs]

/-- The same although no two accesses to the count ever meet: the second thread comes between the
decrement and the unlock of the first. -/
theorem C94_fails_gap (mode : Mode) (i j : Nat) (h : i ≠ j) :
    ∃ s, run mode init [.call i, .step i, .step i, .step i, .step i, .step i, .step i,
        .call j, .step j, .step j, .step j, .step i, .destroy, .proceed, .proceed] = .ok s ∧
      s.dtor = .gone ∧ Runs s j ∧ step mode s (.step j) = .ub := by
  have h' : j ≠ i := h.symm
  simp [run, step, stepThread, init, Function.update_apply, h, h', plusOne, minusOne, unlock, Runs]

/-- One calling thread is enough, if the destructor begins when the call has begun but has not got to the
mutex: whatever the destructor waits for, it is not this call. -/
theorem C94_fails_late (mode : Mode) (i : Nat) :
    ∃ s, run mode init [.call i, .destroy, .proceed, .proceed] = .ok s ∧
      s.dtor = .gone ∧ step mode s (.step i) = .ub := by
  simp [run, step, stepThread, init]

/-- However it is used: the destructor destroys a locked mutex, which POSIX leaves undefined. -/
theorem C94_fails_destroys_locked (mode : Mode) (es : List Event) (s : State) (h : run mode init es = .ok s)
    (hd : s.dtor = .gone) : s.owner = .destroyer :=
  holds_run es (by simp [init]) h (Or.inr hd)

end Ecl.Props
