import Verif.Model.Mutex

/-!
# C34, C73: mutexes
-/
set_option autoImplicit false
set_option linter.unusedSimpArgs false

namespace Ecl.Props
open Ecl Ecl.Mutex

/-- **C34** in debug builds: `trylock(d)` reports true only if the calling thread acquired the mutex
(which was not its own already), for every duration, owner and behaviour of the owner. -/
theorem C34_true_only_if_acquired_debug (s : Mutex) (t : Nat) (now : Int) (free : Option Int)
    (ds dn : Int) (s' : Mutex) (at_ : Int)
    (h : trylockFor .debug s t now free ds dn = .ok s' (true, at_)) :
    s'.owner = some t ∧ s.owner ≠ some t := by
  unfold trylockFor sysTimed at h
  cases ho : s.owner with
  | none => simp [ho] at h; obtain ⟨rfl, _⟩ := h; simp
  | some u =>
    simp only [ho] at h
    by_cases hu : u = t
    · simp [hu] at h
    · simp only [hu, false_and, if_false] at h
      by_cases hn : dn < 0 ∨ dn ≥ 1000000000
      · simp [hn] at h
      · simp only [hn, if_false] at h
        cases free with
        | none => simp at h
        | some f =>
          by_cases hf : f ≤ ds * 1000000000 + dn
          · simp [hf] at h
            obtain ⟨rfl, _⟩ := h
            exact ⟨rfl, by simp [hu]⟩
          · simp [hf] at h

/-- **C34** in release builds for durations with nanoseconds in range. -/
theorem C34_true_only_if_acquired_release_partial (s : Mutex) (t : Nat) (now : Int)
    (free : Option Int) (ds dn : Int) (hd : 0 ≤ dn ∧ dn < 1000000000) (s' : Mutex) (at_ : Int)
    (h : trylockFor .release s t now free ds dn = .ok s' (true, at_)) :
    s'.owner = some t ∧ s.owner ≠ some t := by
  unfold trylockFor sysTimed at h
  have hn : ¬ (dn < 0 ∨ dn ≥ 1000000000) := by omega
  cases ho : s.owner with
  | none => simp [ho] at h; obtain ⟨rfl, _⟩ := h; simp
  | some u =>
    simp only [ho, hn, if_false] at h
    by_cases hu : u = t
    · simp [hu] at h
    · simp only [hu, false_and, if_false] at h
      cases free with
      | none => simp at h
      | some f =>
        by_cases hf : f ≤ ds * 1000000000 + dn
        · simp [hf] at h
          obtain ⟨rfl, _⟩ := h
          exact ⟨rfl, by simp [hu]⟩
        · simp [hf] at h

/-- A duration that lies after the current time works (here: at time 10 s, until 20 s since the
epoch, the owner lets go at 15 s). -/
example : trylockFor .debug ⟨some 1, 1⟩ 0 10000000000 (some 15000000000) 20 0
    = .ok ⟨some 0, 2⟩ (true, 15000000000) := by decide

/-- **C34 fails** in release builds for a negative fraction of a second: true is reported although
another thread owns the mutex. -/
theorem C34_fails_release : ∃ s', trylockFor .release ⟨some 1, 1⟩ 0 10000000000 none 0 (-500000000)
    = .ok s' (true, 10000000000) ∧ s'.owner = some 1 := ⟨_, rfl, rfl⟩

/-- **C34 fails**, for every duration not longer than the time since the epoch: if another thread
owns the mutex, the call returns false at once, even if the mutex is let go within the
duration. -/
theorem C34_fails_no_wait (m : Mode) (s : Mutex) (t u : Nat) (hu : u ≠ t) (ho : s.owner = some u)
    (now : Int) (free : Option Int) (hfree : ∀ f, free = some f → now < f) (ds dn : Int)
    (hd : 0 ≤ dn ∧ dn < 1000000000) (hnow : ds * 1000000000 + dn ≤ now) :
    trylockFor m s t now free ds dn = .ok s (false, now) := by
  have hn : ¬ (dn < 0 ∨ dn ≥ 1000000000) := by omega
  have hs : ({ owner := some u, locks := s.locks } : Mutex) = s := by rw [← ho]
  unfold trylockFor sysTimed
  simp only [ho, hu, false_and, if_false, hn]
  cases free with
  | none => simp [hs, Int.max_eq_left hnow]
  | some f =>
    have := hfree f rfl
    have hf : ¬ f ≤ ds * 1000000000 + dn := by omega
    simp [hf, hs, Int.max_eq_left hnow]

/-- At 10 s since the epoch, a timeout of 5 s, mutex free after 1 s: gives up at once. -/
example : trylockFor .debug ⟨some 1, 1⟩ 0 10000000000 (some 11000000000) 5 0
    = .ok ⟨some 1, 1⟩ (false, 10000000000) := by decide

/-- **C34**: a free mutex is always acquired at once. -/
theorem C34_free (m : Mode) (s : Mutex) (t : Nat) (ho : s.owner = none) (now : Int)
    (free : Option Int) (ds dn : Int) :
    ∃ s', trylockFor m s t now free ds dn = .ok s' (true, now) ∧ s'.owner = some t := by
  unfold trylockFor sysTimed
  cases m <;> simp [ho]

/-! ## C73: mutual exclusion -/

/-- The reader's view of a history: who owns the mutex; `none` if the call blocks or is not
allowed. -/
def ownerAfter (o : Option Nat) (t : Nat) : Mutex.Op → Option (Option Nat × Bool)
  | .lock => if o = none then some (some t, true) else none
  | .trylock => if o = none then some (some t, true) else some (o, false)
  | .unlock => if o = some t then some (none, true) else none

/-- Ownership and answers over a history. -/
def ownerRun : Option Nat → List (Nat × Mutex.Op) → Option (Option Nat × List (Obs Bool))
  | o, [] => some (o, [])
  | o, (t, op) :: l =>
    match ownerAfter o t op with
    | none => none
    | some (o', b) => (ownerRun o' l).map fun r => (r.1, .ok b :: r.2)

/-- **C73**: over every interleaving, by any number of threads, of calls that return and in which
only the owner unlocks, both builds agree with the exclusive-ownership specification, and `locks()`
reports 1 while the mutex is owned and 0 otherwise. -/
theorem C73_exclusion_partial (m : Mode) (l : List (Nat × Mutex.Op)) (o' : Option Nat)
    (obs : List (Obs Bool)) (h : ownerRun none l = some (o', obs)) :
    Mutex.run m Mutex.new l = some (⟨o', if o' = none then 0 else 1⟩, obs) := by
  have key : ∀ (l : List (Nat × Mutex.Op)) (o : Option Nat) (o' : Option Nat) (obs : List (Obs Bool)),
      ownerRun o l = some (o', obs) →
      Mutex.run m ⟨o, if o = none then 0 else 1⟩ l = some (⟨o', if o' = none then 0 else 1⟩, obs) := by
    intro l
    induction l with
    | nil =>
      intro o o' obs h
      simp only [ownerRun, Option.some.injEq, Prod.mk.injEq] at h
      obtain ⟨rfl, rfl⟩ := h
      rfl
    | cons x l ih =>
      obtain ⟨t, op⟩ := x
      intro o o' obs h
      simp only [ownerRun] at h
      have hstep : ∀ o1 b, ownerAfter o t op = some (o1, b) →
          Mutex.step m ⟨o, if o = none then 0 else 1⟩ t op
            = some (.ok ⟨o1, if o1 = none then 0 else 1⟩ b) := by
        intro o1 b ha
        cases op with
        | lock =>
          simp only [ownerAfter] at ha
          cases o with
          | none =>
            simp at ha; obtain ⟨rfl, rfl⟩ := ha
            cases m <;> simp [Mutex.step, Mutex.lock, sysLock, u32]
          | some u => simp at ha
        | trylock =>
          simp only [ownerAfter] at ha
          cases o with
          | none =>
            simp at ha; obtain ⟨rfl, rfl⟩ := ha
            cases m <;> simp [Mutex.step, Mutex.trylock, sysTry, u32]
          | some u =>
            simp at ha; obtain ⟨rfl, rfl⟩ := ha
            cases m <;> simp [Mutex.step, Mutex.trylock, sysTry, u32]
        | unlock =>
          simp only [ownerAfter] at ha
          by_cases ho : o = some t
          · subst ho
            simp at ha; obtain ⟨rfl, rfl⟩ := ha
            cases m <;> simp [Mutex.step, Mutex.unlock, sysUnlock, u32]
          · simp [ho] at ha
      cases ha : ownerAfter o t op with
      | none => simp [ha] at h
      | some r =>
        obtain ⟨o1, b⟩ := r
        simp only [ha] at h
        cases hr : ownerRun o1 l with
        | none => simp [hr] at h
        | some r =>
          obtain ⟨o2, obs2⟩ := r
          simp only [hr, Option.map_some, Option.some.injEq, Prod.mk.injEq] at h
          obtain ⟨rfl, rfl⟩ := h
          simp only [Mutex.run, hstep o1 b ha, ih o1 o2 obs2 hr, Option.map_some]
  exact key l none o' obs h

example : ownerRun none [(0, .lock), (1, .trylock), (0, .unlock), (1, .lock)]
    = some (some 1, [.ok true, .ok false, .ok true, .ok true]) := by decide

/-- **C73**, blocking: `lock` blocks on a mutex of another thread, in both builds. -/
theorem C73_blocks (m : Mode) (s : Mutex) (t u : Nat) (hu : u ≠ t) (ho : s.owner = some u) :
    Mutex.step m s t .lock = none := by
  cases m <;> simp [Mutex.step, Mutex.lock, sysLock, ho, hu]

/-- **C73**, misuse: a second lock by the owner and an unlock by a thread that does not own the mutex
are reported in debug builds; in release builds the one hangs and the other is undefined. -/
theorem C73_misuse (s : Mutex) (t : Nat) :
    (s.owner = some t → (∃ s', Mutex.step .debug s t .lock = some (.throw s' .usageError) ∧
      s'.owner = some t) ∧ Mutex.step .release s t .lock = none) ∧
    (s.owner ≠ some t → (∃ s', Mutex.step .debug s t .unlock = some (.throw s' .permissionsError) ∧
      s'.owner = s.owner) ∧ Mutex.step .release s t .unlock = some .ub) := by
  constructor
  · intro ho
    simp [Mutex.step, Mutex.lock, sysLock, ho, lockFlag]
  · intro ho
    simp [Mutex.step, Mutex.unlock, sysUnlock, ho, unlockFlag]

/-- **C73 fails**: a rejected call is counted all the same, so `locks()` is wrong afterwards. -/
theorem C73_fails_locks : ∃ s', Mutex.run .debug Mutex.new [(0, .lock), (0, .lock), (0, .unlock)]
    = some (s', [.ok true, .error .usageError, .ok true]) ∧ s'.owner = none ∧ s'.locks = 1 :=
  ⟨_, rfl, rfl, rfl⟩

end Ecl.Props
