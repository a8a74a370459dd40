import Verif.Lemmas.MutexWin

/-!
# C95: the mutex on Windows
-/
set_option autoImplicit false
set_option linter.unusedSimpArgs false

namespace Ecl.Props
open Ecl Ecl.MutexWin
variable {n : Nat}

/-- In any interleaving: the mutex is held by one thread at a time; to unlock it is defined exactly for the
thread that holds it; and when no call is going on, `locks` is the number of locks that are held. -/
theorem C95_exclusion (es : List (Event n)) (s : State n) (as : List Bool) (h : run init es = .ok (s, as)) :
    (∀ i j, 0 < s.held i → 0 < s.held j → i = j) ∧
    (∀ i, s.pc i = .idle → (step s (.unlock i) ≠ .ub ↔ 0 < s.held i)) ∧
    ((∀ i, s.pc i = .idle) → s.locks = ∑ i, s.held i) := by
  obtain ⟨ho, hc⟩ := Inv.run es Inv.init h
  unfold Owned at ho
  refine ⟨?_, ?_, ?_⟩
  · intro i j hi hj
    cases hcs : s.cs with
    | none =>
      simp only [hcs] at ho
      have := ho i
      omega
    | some q =>
      obtain ⟨m, k⟩ := q
      simp only [hcs] at ho
      have a : i = m := by
        by_contra hne
        have := ho.2.2 i hne
        omega
      have b : j = m := by
        by_contra hne
        have := ho.2.2 j hne
        omega
      rw [a, b]
  · intro i hp
    simp only [step, hp, if_true, leave]
    cases hcs : s.cs with
    | none =>
      simp only [hcs] at ho
      simp [ho i]
    | some q =>
      obtain ⟨m, k⟩ := q
      simp only [hcs] at ho
      by_cases hm : m = i
      · subst hm
        simp [ho.2.1, ho.1]
      · have := ho.2.2 i (fun h => hm h.symm)
        simp [hm, this]
  · intro hp
    simp only at hc
    rw [hc]
    exact Finset.sum_congr rfl (fun i _ => by rw [hp i]; rfl)

/-- Two threads wait, one after the other gets the mutex. -/
example : ∃ s, run (init : State 3) [.lock 0, .go 0, .lock 1, .lock 2, .go 1, .unlock 0, .go 2, .go 0] = .ok (s, [true, true]) ∧
    s.held 2 = 1 ∧ s.pc 1 = .entering ∧ s.locks = 2 := by
  exact ⟨_, rfl, rfl, rfl, rfl⟩

/-- When no other call is going on, `trylock` takes the mutex if nobody holds it, and otherwise says no and
changes nothing. -/
theorem C95_trylock_partial (es : List (Event n)) (s : State n) (as : List Bool) (h : run init es = .ok (s, as))
    (hp : ∀ i, s.pc i = .idle) (i : Fin n) :
    ((∀ j, s.held j = 0) → ∃ s', run s [.trylock i, .go i, .go i] = .ok (s', [true]) ∧ s'.held i = 1 ∧ s'.pc i = .idle) ∧
    ((∃ j, 0 < s.held j) → step s (.trylock i) = .ok (s, some false)) := by
  have hc := (C95_exclusion es s as h).2.2 hp
  have ho := (Inv.run es Inv.init h).owned
  unfold Owned at ho
  constructor
  · intro hz
    have hl : s.locks = 0 := by rw [hc]; simp [hz]
    have hcs : s.cs = none := by
      cases hcs : s.cs with
      | none => rfl
      | some q =>
        simp only [hcs] at ho
        have := hz q.1
        omega
    refine ⟨_, by simp only [run, step, hp i, if_true, hl, gt_iff_lt, lt_irrefl, if_false, Outcome.bind_ok,
      Function.update_self, hcs, enter, Option.toList, List.nil_append, List.append_nil]; rfl, ?_, ?_⟩
    · simp [hz]
    · simp
  · rintro ⟨j, hj⟩
    have : s.held j ≤ ∑ k, s.held k := le_sum _ j
    simp only [step, hp i, if_true]
    rw [if_pos (by omega)]

example : ∃ s, run (init : State 2) [.lock 0, .go 0, .unlock 0, .go 0] = .ok (s, [true]) ∧ (∀ i, s.pc i = .idle) ∧ ∀ j, s.held j = 0 := by
  refine ⟨_, rfl, ?_, ?_⟩ <;> decide

private theorem wait_step {s : State n} {i j : Fin n} (h : i ≠ j) (k : Nat) (hcs : s.cs = some (i, k)) (hk : 0 < k)
    (hp : s.pc j = .entering) (e : Event n) (he : e ≠ .unlock i) {r : State n × Option Bool} (hs : step s e = .ok r) :
    (∃ k, r.1.cs = some (i, k) ∧ 0 < k) ∧ r.1.pc j = .entering := by
  cases e with
  | lock m =>
    simp only [step] at hs
    split at hs
    · cases hs
      refine ⟨⟨k, hcs, hk⟩, ?_⟩
      have : j ≠ m := by rintro rfl; simp_all
      simp [this, hp]
    · cases hs
      exact ⟨⟨k, hcs, hk⟩, hp⟩
  | trylock m =>
    simp only [step] at hs
    split at hs
    · split at hs
      · cases hs
        exact ⟨⟨k, hcs, hk⟩, hp⟩
      · cases hs
        refine ⟨⟨k, hcs, hk⟩, ?_⟩
        have : j ≠ m := by rintro rfl; simp_all
        simp [this, hp]
    · cases hs
      exact ⟨⟨k, hcs, hk⟩, hp⟩
  | unlock m =>
    simp only [step] at hs
    split at hs
    · have : i ≠ m := by rintro rfl; exact he rfl
      simp [hcs, leave, this] at hs
    · cases hs
      exact ⟨⟨k, hcs, hk⟩, hp⟩
  | go m =>
    simp only [step] at hs
    split at hs
    · cases hs
      exact ⟨⟨k, hcs, hk⟩, hp⟩
    · cases hs
      refine ⟨⟨k, hcs, hk⟩, ?_⟩
      have : j ≠ m := by rintro rfl; simp_all
      simp [this, hp]
    · rw [hcs] at hs
      simp only [enter] at hs
      split at hs
      · cases hs
        exact ⟨⟨k, hcs, hk⟩, hp⟩
      · rename_i hh
        split at hh
        · rename_i him
          subst him
          cases hh
          cases hs
          refine ⟨⟨_, rfl, by omega⟩, ?_⟩
          simp [h.symm, hp]
        · cases hh
    · cases hs
      refine ⟨⟨k, hcs, hk⟩, ?_⟩
      have : j ≠ m := by rintro rfl; simp_all
      simp [this, hp]

private theorem wait_run {i j : Fin n} (h : i ≠ j) : ∀ (es : List (Event n)) {s : State n} (k : Nat) (_ : s.cs = some (i, k)) (_ : 0 < k)
    (_ : s.pc j = .entering) (_ : Event.unlock i ∉ es) {r : State n × List Bool} (_ : run s es = .ok r), r.1.pc j = .entering
  | [], s, k, _, _, hp, _, r, hr => by cases hr; exact hp
  | e :: es, s, k, hcs, hk, hp, he, r, hr => by
    rw [run] at hr
    cases hs : step s e with
    | ok q =>
      rw [hs, Outcome.bind_ok] at hr
      obtain ⟨⟨k', h1, h2⟩, h3⟩ := wait_step h k hcs hk hp e (fun hh => he (by simp [hh])) hs
      cases hr' : run q.1 es with
      | ok p =>
        rw [hr', Outcome.bind_ok] at hr
        have := wait_run h es k' h1 h2 h3 (fun hh => he (by simp [hh])) hr'
        cases hr
        exact this
      | throw f => rw [hr'] at hr; cases hr
      | ub => rw [hr'] at hr; cases hr
    | throw f => rw [hs] at hr; cases hr
    | ub => rw [hs] at hr; cases hr

/-- Two threads call `trylock` at the same time.  Both find the counter at 0; the first takes the mutex, and
the second is stuck in `trylock` until the first unlocks it, whatever else happens. -/
theorem C95_fails_trylock_waits (i j : Fin n) (h : i ≠ j) :
    ∃ s, run init [.trylock i, .trylock j, .go i, .go i, .go j, .go j] = .ok (s, [true]) ∧ 0 < s.held i ∧
      ∀ es s' as, Event.unlock i ∉ es → run s es = .ok (s', as) → s'.pc j ≠ .idle := by
  have h' := h.symm
  refine ⟨⟨some (i, 1), 2, Function.update (Function.update (fun _ => .idle) i .idle) j .entering, Function.update (fun _ => 0) i 1⟩, ?_, ?_, ?_⟩
  · simp only [run, step, init, Function.update_apply, h, h', enter, if_true, if_false, Outcome.bind_ok, gt_iff_lt, lt_irrefl,
      Option.toList, List.nil_append, List.append_nil, Nat.zero_add, Nat.reduceAdd, reduceCtorEq]
    congr 3
    · funext m
      simp only [Function.update_apply]
      split_ifs <;> simp_all
  · simp
  · intro es s' as he hr
    have := wait_run h es (s := ⟨some (i, 1), 2, Function.update (Function.update (fun _ => .idle) i .idle) j .entering, Function.update (fun _ => 0) i 1⟩)
      1 rfl (by decide) (by simp) he hr
    simp only at this
    rw [this]
    decide

end Ecl.Props
