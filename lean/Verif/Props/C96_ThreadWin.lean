import Verif.Model.ThreadWin
import Mathlib.Tactic.Common

/-!
# C96: threads and priorities on Windows
-/
set_option autoImplicit false
set_option linter.unusedSimpArgs false

namespace Ecl.Props
open Ecl Ecl.ThreadWin
open Ecl.Priority (Level)

/-- A level that is set by a thread with the right to do so reads back; the real time levels as the first of
them. -/
theorem C96_priority_partial (m : Mode) (f : Flag) (cur : Int) (l : Level) (h : l ≠ .default ∧ l ≠ .unknown) :
    ∃ p, ThreadWin.setPriority m f true cur l = .ok p true ∧
      (l.rt = none → ThreadWin.getPriority p = l) ∧ (l.rt.isSome → ThreadWin.getPriority p = .rt1) := by
  obtain ⟨h1, h2⟩ := h
  cases l
  · exact absurd rfl h1
  · exact absurd rfl h2
  all_goals
    refine ⟨_, rfl, ?_, ?_⟩ <;> intro h <;> first | rfl | exact absurd h (by decide)

example : ThreadWin.setPriority .debug .unknownError true 0 .critical = .ok 2 true := by decide

/-- The levels of real time are not told apart, and nothing says so. -/
theorem C96_fails_realtime (m : Mode) (f : Flag) (cur : Int) :
    ∃ p, ThreadWin.setPriority m f true cur .rt4 = .ok p true ∧ ThreadWin.getPriority p ≠ .rt4 :=
  ⟨timeCritical, rfl, by decide⟩

/-- The default level cannot be set. -/
theorem C96_fails_default (f : Flag) (may : Bool) (cur : Int) :
    ThreadWin.setPriority .debug f may cur .default = .throw cur f ∧
    ThreadWin.setPriority .release f may cur .default = .ok cur false := ⟨rfl, rfl⟩

/-- Threads that are started at a higher or lower level, and real time ones, run at it. -/
theorem C96_start_level_partial (m : Mode) (f : Flag) (l : Level)
    (h : l = .high ∨ l = .low ∨ l = .background ∨ l.rt.isSome) (s : State) (hs : s.started = false) :
    ∃ s', step m f true s (.start true l) = some (.ok s' .done) ∧ s'.thr = .running ∧
      (l.rt = none → ThreadWin.getPriority s'.prio = l) ∧ (l.rt.isSome → ThreadWin.getPriority s'.prio = .rt1) := by
  have hp : (startPriority true l).2 = true := by
    cases l <;> first | rfl | (exfalso; revert h; decide)
  refine ⟨{ s with started := true, task := true, news := s.news + 1, handle := true, thr := .running, created := s.created + 1, prio := (startPriority true l).1 },
    by simp only [step, hs, hp, if_true, Bool.false_eq_true, if_false], rfl, ?_, ?_⟩
  · cases l <;> first | (intro _; rfl) | (exfalso; revert h; decide) | (intro h; exact absurd h (by decide))
  · cases l <;> first | (intro _; rfl) | (exfalso; revert h; decide) | (intro h; exact absurd h (by decide))

/-- In debug builds every thread that is started with the default or the normal priority, whatever its
rights, makes `start` throw, and the thread runs all the same.  (Thrown by a constructor this leaves a thread that
nobody can join or cancel.) -/
theorem C96_fails_start_throws (f : Flag) (may : Bool) (l : Level) (h : l = .default ∨ l = .normal) :
    ∃ s, step .debug f may .new (.start true l) = some (.throw s f) ∧ s.thr = .running ∧ s.task = true := by
  rcases h with rfl | rfl <;> exact ⟨_, rfl, rfl, rfl⟩

/-- A thread started with critical priority runs at the normal one. -/
theorem C96_fails_critical (f : Flag) (may : Bool) :
    ∃ s, step .release f may .new (.start true .critical) = some (.ok s .done) ∧ s.thr = .running ∧
      ThreadWin.getPriority s.prio = .normal := by
  cases may <;> exact ⟨_, rfl, rfl, rfl⟩

/-- Which threads that could be created `start` complains about in debug builds, decided: those whose level is none of
high, low, background and real time (the critical one included), and all if the caller has no right to set levels.  In
release builds `start` never complains of one that was created. -/
theorem C96_start_throws (f : Flag) (may : Bool) (l : Level) (s : State) (hs : s.started = false) :
    ((∃ s', step .debug f may s (.start true l) = some (.throw s' f)) ↔
      (may = false ∨ ¬ (l = .high ∨ l = .low ∨ l = .background ∨ l.rt.isSome))) ∧
    (∃ s', step .release f may s (.start true l) = some (.ok s' .done)) := by
  constructor
  · simp only [step, hs, Bool.false_eq_true, if_false, if_true]
    cases may <;> cases l <;> simp [startPriority, setThreadPriority, accepted, isRealTime, Priority.Level.rt,
      highPriorityClass, aboveNormal, belowNormal, idle, timeCritical]
  · simp only [step, hs, Bool.false_eq_true, if_false, if_true]
    split <;> exact ⟨_, rfl⟩

example : ∃ s', step .debug .unknownError true .new (.start true .critical) = some (.throw s' .unknownError) :=
  (C96_start_throws _ _ _ _ rfl).1.2 (by decide)

/-- `isRunning` of a thread that could not be created, and of one that has ended. -/
theorem C96_fails_is_running (f : Flag) (may : Bool) :
    (∃ s, step .release f may .new (.start false .default) = some (.ok s .createFailed) ∧ s.thr = .none ∧
      step .release f may s .isRunning = some (.ok s (.bool true))) ∧
    (∃ s, run .release f may .new [.start true .high, .finish, .join] = some (.ok s) ∧ s.thr = .ended ∧
      step .release f may s .isRunning = some (.ok s (.bool true))) := by
  constructor
  · exact ⟨_, rfl, rfl, rfl⟩
  · cases may <;> exact ⟨_, rfl, rfl, rfl⟩

/-- To cancel a running thread deletes the function object under it. -/
theorem C96_fails_cancel (m : Mode) (f : Flag) (may : Bool) :
    run m f may .new [.start true .high, .cancel, .late] = some .ub := by
  cases m <;> cases may <;> rfl

/-- No call of the history cancels a running thread. -/
def Gentle (m : Mode) (f : Flag) (may : Bool) : State → List Op → Prop
  | _, [] => True
  | s, op :: l => (op = .cancel → s.thr ≠ .running) ∧
      match step m f may s op with
      | some (.ok s' _) => Gentle m f may s' l
      | some (.throw s' _) => Gentle m f may s' l
      | _ => True

private structure Inv (s : State) : Prop where
  none : s.terminated = 0
  live : s.thr = .running → s.task = true ∧ s.handle = true ∧ s.started = true
  tasks : s.deletes + (if s.task then 1 else 0) = s.news
  fresh : s.started = false → s.task = false ∧ s.thr ≠ .running

private theorem Inv.new : Inv .new := ⟨rfl, by decide, rfl, by decide⟩

private theorem Inv.step {m : Mode} {f : Flag} {may : Bool} {s : State} (h : Inv s) (op : Op) (hg : op = .cancel → s.thr ≠ .running)
    (r : Res State Ans) (hr : step m f may s op = some r) :
    ∃ s', Inv s' ∧ ((∃ a, r = .ok s' a) ∨ ∃ e, r = .throw s' e) := by
  obtain ⟨h1, h2, h3, h4⟩ := h
  cases op with
  | start ok l =>
    simp only [ThreadWin.step] at hr
    split at hr
    · refine ⟨s, ⟨h1, h2, h3, h4⟩, ?_⟩
      cases m <;> cases hr
      · exact Or.inr ⟨_, rfl⟩
      · exact Or.inl ⟨_, rfl⟩
    · rename_i hs
      have hs' : s.started = false := by simpa using hs
      have ht := (h4 hs').1
      have hn := (h4 hs').2
      rw [ht] at h3
      simp only [Bool.false_eq_true, if_false, Nat.add_zero] at h3
      split at hr
      · split at hr
        · cases hr
          refine ⟨_, ?_, Or.inl ⟨_, rfl⟩⟩; exact ⟨h1, fun _ => ⟨rfl, rfl, rfl⟩, by simp [h3], by simp⟩
        · cases m <;> cases hr
          · refine ⟨_, ?_, Or.inr ⟨_, rfl⟩⟩; exact ⟨h1, fun _ => ⟨rfl, rfl, rfl⟩, by simp [h3], by simp⟩
          · refine ⟨_, ?_, Or.inl ⟨_, rfl⟩⟩; exact ⟨h1, fun _ => ⟨rfl, rfl, rfl⟩, by simp [h3], by simp⟩
      · cases m <;> cases hr
        · refine ⟨_, ?_, Or.inr ⟨_, rfl⟩⟩; exact ⟨h1, fun hh => absurd hh hn, by simp [h3], by simp⟩
        · refine ⟨_, ?_, Or.inl ⟨_, rfl⟩⟩; exact ⟨h1, fun hh => absurd hh hn, by simp [h3], by simp⟩
  | isRunning =>
    cases hr
    exact ⟨s, ⟨h1, h2, h3, h4⟩, Or.inl ⟨_, rfl⟩⟩
  | cancel =>
    have hn := hg rfl
    simp only [ThreadWin.step, Option.some.injEq] at hr
    subst hr
    refine ⟨_, ?_, Or.inl ⟨_, rfl⟩⟩
    cases hh : s.handle <;> cases ht : s.task <;> simp [hn, ht] at h3 ⊢ <;>
      exact ⟨by simp [h1], by simp [hn], by simp [h3, ht], by simp [hn, ht]⟩
  | join =>
    simp only [ThreadWin.step] at hr
    split at hr
    · cases hr
    · cases hr
      refine ⟨_, ?_, Or.inl ⟨_, rfl⟩⟩; exact ⟨h1, h2, h3, h4⟩
  | finish =>
    simp only [ThreadWin.step] at hr
    split at hr
    · cases hr
      refine ⟨_, ?_, Or.inl ⟨_, rfl⟩⟩; exact ⟨h1, by simp, h3, fun hh => ⟨(h4 hh).1, by simp⟩⟩
    · cases hr
  | late => simp [ThreadWin.step, h1] at hr
  | gone => simp [ThreadWin.step, h1] at hr

private theorem Inv.run {m : Mode} {f : Flag} {may : Bool} : ∀ (ops : List Op) {s : State}, Inv s → Gentle m f may s ops →
    ∀ r, run m f may s ops = some r → ∃ s', r = .ok s' ∧ Inv s'
  | [], s, h, _, r, hr => by cases hr; exact ⟨s, rfl, h⟩
  | op :: l, s, h, hg, r, hr => by
    obtain ⟨hc, hg⟩ := hg
    rw [ThreadWin.run] at hr
    cases hs : ThreadWin.step m f may s op with
    | none => rw [hs] at hr; cases hr
    | some q =>
      obtain ⟨s', h', ⟨a, rfl⟩ | ⟨e, rfl⟩⟩ := h.step op hc q hs
      · rw [hs] at hr hg
        exact Inv.run l h' hg r hr
      · rw [hs] at hr hg
        exact Inv.run l h' hg r hr

/-- In histories that cancel no running thread, nothing is undefined, a running thread has its function object, and
every function object that was made is deleted at most once, and has been when the object is back at its
start. -/
theorem C96_life_partial (m : Mode) (f : Flag) (may : Bool) (ops : List Op) (hg : Gentle m f may .new ops)
    (r : Outcome State) (hr : run m f may .new ops = some r) :
    ∃ s, r = .ok s ∧ (s.thr = .running → s.task = true) ∧ s.deletes ≤ s.news ∧
      (s.started = false → s.deletes = s.news ∧ s.thr ≠ .running) := by
  obtain ⟨s, h1, h2⟩ := Inv.run ops Inv.new hg r hr
  refine ⟨s, h1, fun h => (h2.live h).1, ?_, ?_⟩
  · have := h2.tasks
    omega
  · intro h
    have h3 := h2.tasks
    rw [(h2.fresh h).1] at h3
    exact ⟨by simpa using h3, (h2.fresh h).2⟩

example : Gentle .release .unknownError true .new [.start true .high, .start true .low, .finish, .join, .cancel, .start false .low, .cancel] ∧
    ∃ s, run .release .unknownError true .new [.start true .high, .start true .low, .finish, .join, .cancel, .start false .low, .cancel] = some (.ok s) ∧
      s.created = 1 ∧ s.deletes = 2 := by
  refine ⟨?_, _, rfl, rfl, rfl⟩
  refine ⟨by decide, ?_⟩
  refine ⟨by decide, ?_⟩
  refine ⟨by decide, ?_⟩
  refine ⟨by decide, ?_⟩
  refine ⟨by decide, ?_⟩
  refine ⟨by decide, ?_⟩
  exact ⟨by decide, trivial⟩

/-- An object that has been started starts no second thread before it is cancelled; `join` returns only when the
thread has ended; after `cancel` it can be started again. -/
theorem C96_one_at_a_time (m : Mode) (f : Flag) (may : Bool) (s : State) :
    (∀ ok l r, s.started = true → step m f may s (.start ok l) = some r → r = .throw s .busyError ∨ r = .ok s .busy) ∧
    (∀ s' a, s.handle = true → step m f may s .join = some (.ok s' a) → s'.thr ≠ .running) ∧
    (∃ s', step m f may s .cancel = some (.ok s' .done) ∧ s'.started = false ∧ s'.handle = false) := by
  refine ⟨?_, ?_, ?_⟩
  · intro ok l r hs hr
    simp only [step, hs, if_true] at hr
    cases m <;> cases hr
    · exact Or.inl rfl
    · exact Or.inr rfl
  · intro s' a hh hr
    simp only [step, hh, Bool.true_and] at hr
    split at hr
    · cases hr
    · rename_i hn
      cases hr
      simpa using hn
  · refine ⟨_, rfl, rfl, ?_⟩
    cases hh : s.handle <;> cases ht : s.task <;> simp [hh, ht]

/-- Without the right to it no level is ever set: the priority stays, and the caller is told (by an exception
in debug builds, but for the real time levels). -/
theorem C96_refused (m : Mode) (f : Flag) (cur : Int) (l : Level) :
    ThreadWin.setPriority m f false cur l =
      if m = .debug ∧ l.rt = none then .throw cur f else .ok cur false := by
  cases m <;> cases l <;> rfl

/-- Nor by `start`: the new thread runs at the normal priority. -/
theorem C96_start_refused (l : Level) : (startPriority false l).1 = normal := by
  cases l <;> rfl

end Ecl.Props
