import Verif.Model.Thread
import Verif.Model.Priority

/-!
# C35, C36, C74: threads, priorities, threadables
-/
set_option autoImplicit false
set_option linter.unusedSimpArgs false

namespace Ecl.Props
open Ecl

/-! ## C35 -/

section
open Ecl.Thread

/-- **C35**: in every history of calls and events, whatever their order, one object creates at most
one thread. -/
theorem C35_one_thread (m : Mode) (l : List Thread.Op) (s : State)
    (h : Thread.run m State.new l = some (.ok s)) : s.created ≤ 1 := by
  have hstep : ∀ (s s' : State) (op : Thread.Op),
      ((∃ a, Thread.step m s op = some (.ok s' a)) ∨ ∃ e, Thread.step m s op = some (.throw s' e)) →
      (s'.created = s.created ∧ s'.started = s.started) ∨
      (s'.created ≤ s.created + 1 ∧ s.started = false ∧ s'.started = true) := by
    intro s s' op h
    obtain ⟨st, jr, tk, lv, th, hd, cr, dl, ds⟩ := s
    rcases h with ⟨a, h⟩ | ⟨e, h⟩ <;> cases op with
    | start ok =>
      cases ds <;> cases st <;> cases ok <;> cases m <;> simp [Thread.step] at h <;>
        (obtain ⟨rfl, _⟩ := h) <;> simp
    | isRunning => cases ds <;> simp [Thread.step] at h <;> (obtain ⟨rfl, _⟩ := h) <;> simp
    | cancel =>
      cases ds <;> cases tk <;> cases lv <;> cases th <;> cases hd <;>
        simp [Thread.step, deleteTask] at h <;> (obtain ⟨rfl, _⟩ := h) <;> simp
    | join =>
      cases ds <;> cases tk <;> cases th <;> cases hd <;>
        simp [Thread.step, deleteTask] at h <;> (obtain ⟨rfl, _⟩ := h) <;> simp
    | destroy =>
      cases ds <;> cases st <;> cases jr <;> cases hd <;>
        simp [Thread.step, deleteTask] at h <;> (obtain ⟨rfl, _⟩ := h) <;> simp
    | finish =>
      cases th <;> cases lv <;>
        simp [Thread.step, deleteTask] at h <;> (obtain ⟨rfl, _⟩ := h) <;> simp
    | die =>
      cases th <;> simp [Thread.step, deleteTask] at h <;> (obtain ⟨rfl, _⟩ := h) <;> simp
  have key : ∀ (l : List Thread.Op) (s s' : State),
      (s.created ≤ 1 ∧ (s.started = false → s.created = 0)) →
      Thread.run m s l = some (.ok s') → s'.created ≤ 1 := by
    intro l
    induction l with
    | nil => intro s s' hs h; simp only [Thread.run, Option.some.injEq, Outcome.ok.injEq] at h
             subst h; exact hs.1
    | cons op l ih =>
      intro s s' hs h
      simp only [Thread.run] at h
      cases hx : Thread.step m s op with
      | none => simp [hx] at h
      | some r =>
        cases r with
        | ub => simp [hx] at h
        | ok s1 a =>
          simp only [hx] at h
          refine ih s1 s' ?_ h
          rcases hstep s s1 op (.inl ⟨a, hx⟩) with ⟨h1, h2⟩ | ⟨h1, h2, h3⟩
          · rw [h1, h2]; exact hs
          · have := hs.2 h2; exact ⟨by omega, by simp [h3]⟩
        | throw s1 e =>
          simp only [hx] at h
          refine ih s1 s' ?_ h
          rcases hstep s s1 op (.inr ⟨e, hx⟩) with ⟨h1, h2⟩ | ⟨h1, h2, h3⟩
          · rw [h1, h2]; exact hs
          · have := hs.2 h2; exact ⟨by omega, by simp [h3]⟩
  exact key l _ s ⟨by simp [State.new], by simp [State.new]⟩ h

/-- The reader's view of a life cycle. -/
structure Life where
  started : Bool := false
  cancelled : Bool := false
  ended : Bool := false
  joined : Bool := false
  destroyed : Bool := false
  deriving DecidableEq, Repr

/-- Effect of a call or event; `none` if it is not possible, blocks, or is left out: threads that
cannot be created, join before start, joining twice, join after cancel, cancel after the function
has returned, the function returning after cancel. -/
def Life.next (f : Life) : Thread.Op → Option Life
  | .start ok => if !f.destroyed && ok then some { f with started := true } else none
  | .isRunning => if !f.destroyed then some f else none
  | .cancel => if !f.destroyed && f.started && !f.joined && (f.cancelled || !f.ended)
      then some { f with cancelled := true } else none
  | .join => if !f.destroyed && f.started && !f.cancelled && f.ended && !f.joined
      then some { f with joined := true } else none
  | .destroy => if !f.destroyed then some { f with destroyed := true } else none
  | .finish => if f.started && !f.ended && !f.cancelled then some { f with ended := true } else none
  | .die => if f.started && !f.ended && f.cancelled then some { f with ended := true } else none

def Life.run : Life → List Thread.Op → Option Life
  | f, [] => some f
  | f, op :: l =>
    match f.next op with
    | none => none
    | some f' => f'.run l

private def stateOf (f : Life) : State where
  started := f.started
  joinRequested := f.joined
  task := f.started && !f.cancelled
  live := f.started && !f.cancelled && !f.ended
  thr := if !f.started then .none else if f.ended then .ended
    else if f.cancelled then .cancelling else .running
  handle := if !f.started then .invalid else if f.joined || f.destroyed then .released else .joinable
  created := if f.started then 1 else 0
  deletes := if f.cancelled || f.ended then 1 else 0
  destroyed := f.destroyed

private def Life.Ok (f : Life) : Prop :=
  (f.started = false → f.cancelled = false ∧ f.ended = false ∧ f.joined = false) ∧
  (f.joined = true → f.ended = true ∧ f.cancelled = false)

/-- **C35**: for every history in the above sense, in both builds, every call is possible, nothing
undefined happens, the thread is created when it was started, its task is deleted exactly once (by
its end or by `cancel`), and the handle is released exactly once, by the join or the destructor
(releasing a released handle would be undefined).  What is left out is false of the code, see the
`fails` theorems. -/
theorem C35_life_partial (m : Mode) (l : List Thread.Op) (f : Life) (h : Life.run {} l = some f) :
    ∃ s, Thread.run m State.new l = some (.ok s) ∧
      s.created = (if f.started then 1 else 0) ∧
      s.deletes = (if f.cancelled || f.ended then 1 else 0) ∧
      (s.handle = .released ↔ f.joined = true ∨ (f.started = true ∧ f.destroyed = true)) ∧
      (s.thr = .running ↔ f.started = true ∧ f.ended = false ∧ f.cancelled = false) ∧
      (s.thr = .ended ↔ f.ended = true) ∧
      (f.destroyed = false → Thread.step m s .isRunning
        = some (.ok s (.bool (f.started && !f.cancelled)))) := by
  have hstep : ∀ (f f' : Life) (op : Thread.Op), f.Ok → f.next op = some f' → f'.Ok ∧
      ((∃ a, Thread.step m (stateOf f) op = some (.ok (stateOf f') a)) ∨
        ∃ e, Thread.step m (stateOf f) op = some (.throw (stateOf f') e)) := by
    rintro ⟨st, ca, en, jo, de⟩ f' op hok hn
    simp only [Life.Ok] at hok
    cases op with
    | start ok =>
      cases ok <;> cases de <;> simp [Life.next] at hn
      subst hn
      cases st
      · obtain ⟨rfl, rfl, rfl⟩ := hok.1 rfl
        exact ⟨by simp [Life.Ok], .inl ⟨.done, rfl⟩⟩
      · refine ⟨by simpa [Life.Ok] using hok, ?_⟩
        cases m
        · exact .inr ⟨.busyError, by simp [Thread.step, stateOf]⟩
        · exact .inl ⟨.busy, by simp [Thread.step, stateOf]⟩
    | isRunning =>
      cases de <;> simp [Life.next] at hn
      subst hn
      exact ⟨hok, .inl ⟨_, rfl⟩⟩
    | cancel =>
      cases de <;> cases st <;> cases jo <;> cases ca <;> cases en <;> simp [Life.next] at hn <;>
        subst hn <;> exact ⟨by simp [Life.Ok], .inl ⟨.done, rfl⟩⟩
    | join =>
      cases de <;> cases st <;> cases jo <;> cases ca <;> cases en <;> simp [Life.next] at hn <;>
        subst hn <;> exact ⟨by simp [Life.Ok], .inl ⟨.done, rfl⟩⟩
    | destroy =>
      cases de <;> cases st <;> cases jo <;> cases ca <;> cases en <;> simp [Life.next] at hn <;>
        subst hn <;> simp at hok <;> exact ⟨by simp [Life.Ok], .inl ⟨.done, rfl⟩⟩
    | finish =>
      cases de <;> cases st <;> cases jo <;> cases ca <;> cases en <;> simp [Life.next] at hn <;>
        subst hn <;> simp at hok <;> exact ⟨by simp [Life.Ok], .inl ⟨.done, rfl⟩⟩
    | die =>
      cases de <;> cases st <;> cases jo <;> cases ca <;> cases en <;> simp [Life.next] at hn <;>
        subst hn <;> simp at hok <;> exact ⟨by simp [Life.Ok], .inl ⟨.done, rfl⟩⟩
  have key : ∀ (l : List Thread.Op) (f0 f : Life), f0.Ok → Life.run f0 l = some f →
      f.Ok ∧ Thread.run m (stateOf f0) l = some (.ok (stateOf f)) := by
    intro l
    induction l with
    | nil =>
      intro f0 f h0 h
      simp only [Life.run, Option.some.injEq] at h
      subst h; exact ⟨h0, rfl⟩
    | cons op l ih =>
      intro f0 f h0 h
      simp only [Life.run] at h
      cases hx : f0.next op with
      | none => simp [hx] at h
      | some f1 =>
        simp only [hx] at h
        obtain ⟨h1, hs⟩ := hstep f0 f1 op h0 hx
        obtain ⟨h2, h3⟩ := ih f1 f h1 h
        refine ⟨h2, ?_⟩
        rcases hs with ⟨a, hs⟩ | ⟨e, hs⟩ <;> simp only [Thread.run, hs, h3]
  obtain ⟨h1, h2⟩ := key l {} f (by simp [Life.Ok]) h
  refine ⟨stateOf f, h2, ?_⟩
  obtain ⟨st, ca, en, jo, de⟩ := f
  cases st <;> cases ca <;> cases en <;> cases jo <;> cases de <;> simp [Life.Ok] at h1 <;>
    simp [stateOf, Thread.step]

example : Life.run {} [.start true, .isRunning, .start true, .finish, .join, .destroy]
    = some ⟨true, false, true, true, true⟩ := by decide
example : Life.run {} [.start true, .destroy, .finish] = some ⟨true, false, true, false, true⟩ := by
  decide
example : Life.run {} [.start true, .cancel, .die, .destroy] = some ⟨true, true, true, false, true⟩ := by
  decide

/-- **C35**, `isRunning` in such histories: true while the function runs and false before `start`
and after `cancel` - but see `C35_fails_isRunning`. -/
theorem C35_isRunning_partial (m : Mode) (l : List Thread.Op) (f : Life) (h : Life.run {} l = some f)
    (hd : f.destroyed = false) (hf : f.ended = false ∨ f.cancelled = true) :
    ∃ s, Thread.run m State.new l = some (.ok s) ∧
      Thread.step m s .isRunning = some (.ok s (.bool (f.started && !f.cancelled))) ∧
      ((f.started && !f.cancelled) = true ↔ s.thr = .running) := by
  obtain ⟨s, hs, h1, h2, h3, h4, h5, h6⟩ := C35_life_partial m l f h
  refine ⟨s, hs, h6 hd, ?_⟩
  rw [h4]
  obtain ⟨st, ca, en, jo, de⟩ := f
  rcases hf with hf | hf <;> simp only at hf <;> subst hf <;> simp

example : ∃ s, Thread.run .debug State.new [.start true] = some (.ok s) ∧ s.thr = .running ∧
    Thread.step .debug s .isRunning = some (.ok s (.bool true)) := ⟨_, rfl, rfl, rfl⟩

/-- **C35**: `join` waits: in every history of a started and not cancelled object, a join that
returns finds the thread ended, and it cannot return before. -/
theorem C35_join_waits (m : Mode) (l : List Thread.Op) (f : Life) (h : Life.run {} l = some f)
    (hs : f.started = true) (hc : f.cancelled = false) (hd : f.destroyed = false)
    (hj : f.joined = false) :
    ∃ s, Thread.run m State.new l = some (.ok s) ∧
      (f.ended = false → Thread.step m s .join = none) ∧
      (f.ended = true → ∃ s', Thread.step m s .join = some (.ok s' .done) ∧ s'.thr = .ended ∧
        s'.handle = .released) := by
  obtain ⟨s, h0, h1, h2, h3, h4, h5, h6⟩ := C35_life_partial m l f h
  have h6 := h6 hd
  have hh : s.handle = .joinable := by
    have hr : s.handle ≠ .released := fun e => by
      rcases h3.1 e with e | e
      · rw [hj] at e; cases e
      · rw [hd] at e; cases e.2
    have hi : s.handle ≠ .invalid := by
      intro e
      have hx : ∀ (l : List Thread.Op) (s s' : State), (s.created ≥ 1 → s.handle ≠ .invalid) →
          Thread.run m s l = some (.ok s') → s'.created ≥ 1 → s'.handle ≠ .invalid := by
        intro l
        induction l with
        | nil =>
          intro s s' hi h
          simp only [Thread.run, Option.some.injEq, Outcome.ok.injEq] at h
          subst h; exact hi
        | cons op l ih =>
          intro s s' hi h
          simp only [Thread.run] at h
          have hstep : ∀ s1, ((∃ a, Thread.step m s op = some (.ok s1 a)) ∨
              ∃ e, Thread.step m s op = some (.throw s1 e)) →
              (s1.created ≥ 1 → s1.handle ≠ .invalid) := by
            intro s1 h
            obtain ⟨st, jr, tk, lv, th, hd, cr, dl, ds⟩ := s
            simp only at hi
            rcases h with ⟨a, h⟩ | ⟨e, h⟩ <;> cases op with
            | start ok =>
              cases ds <;> cases st <;> cases ok <;> cases m <;> simp [Thread.step] at h <;>
                (obtain ⟨rfl, _⟩ := h) <;> first | exact hi | simp
            | isRunning => cases ds <;> simp [Thread.step] at h <;> (obtain ⟨rfl, _⟩ := h) <;> exact hi
            | cancel =>
              cases ds <;> cases tk <;> cases lv <;> cases th <;> cases hd <;>
                simp [Thread.step, deleteTask] at h <;> (obtain ⟨rfl, _⟩ := h) <;> first | exact hi | simp
            | join =>
              cases ds <;> cases tk <;> cases th <;> cases hd <;>
                simp [Thread.step, deleteTask] at h <;> (obtain ⟨rfl, _⟩ := h) <;> first | exact hi | simp
            | destroy =>
              cases ds <;> cases st <;> cases jr <;> cases hd <;>
                simp [Thread.step, deleteTask] at h <;> (obtain ⟨rfl, _⟩ := h) <;> first | exact hi | simp
            | finish =>
              cases th <;> cases lv <;>
                simp [Thread.step, deleteTask] at h <;> (obtain ⟨rfl, _⟩ := h) <;> exact hi
            | die =>
              cases th <;> simp [Thread.step, deleteTask] at h <;> (obtain ⟨rfl, _⟩ := h) <;> exact hi
          cases hx : Thread.step m s op with
          | none => simp [hx] at h
          | some r =>
            cases r with
            | ub => simp [hx] at h
            | ok s1 a => simp only [hx] at h; exact ih s1 s' (hstep s1 (.inl ⟨a, hx⟩)) h
            | throw s1 e => simp only [hx] at h; exact ih s1 s' (hstep s1 (.inr ⟨e, hx⟩)) h
      exact hx l _ s (by simp [State.new]) h0 (by rw [h1, hs]; simp) e
    cases hq : s.handle <;> simp_all
  have hdes : s.destroyed = false := by
    cases hq : s.destroyed
    · rfl
    · simp [Thread.step, hq] at h6
  have htask : s.task = true := by
    rw [hs, hc] at h6
    simp [Thread.step, hdes] at h6
    exact h6
  refine ⟨s, h0, fun he => ?_, fun he => ?_⟩
  · have : s.thr ≠ .ended := fun e => by rw [h5.1 e] at he; cases he
    simp [Thread.step, hdes, htask, hh, this]
  · have := h5.2 he
    exact ⟨{ s with joinRequested := true, handle := .released },
      by simp [Thread.step, hdes, htask, hh, this], this, rfl⟩

example : ∃ s, Thread.run .debug State.new [.start true] = some (.ok s) ∧
    Thread.step .debug s .join = none := ⟨_, rfl, rfl⟩

/-- **C35 fails**: `isRunning` stays true after the function has returned. -/
theorem C35_fails_isRunning (m : Mode) : ∃ s, Thread.run m State.new [.start true, .finish] = some (.ok s) ∧
    s.thr = .ended ∧ Thread.step m s .isRunning = some (.ok s (.bool true)) := ⟨_, rfl, rfl, rfl⟩

/-- **C35 fails**: `cancel` after the function has returned deletes the task a second time. -/
theorem C35_fails_cancel_late (m : Mode) :
    Thread.run m State.new [.start true, .finish, .cancel] = some .ub := rfl

/-- **C35 fails**: so does a function that returns although it was cancelled. -/
theorem C35_fails_cancel_early (m : Mode) :
    Thread.run m State.new [.start true, .cancel, .finish] = some .ub := rfl

/-- **C35 fails**: after `cancel`, `join` returns while the thread is still there, and the handle is
never released. -/
theorem C35_fails_join_cancelled (m : Mode) :
    (∃ s, Thread.run m State.new [.start true, .cancel, .join] = some (.ok s) ∧ s.thr = .cancelling) ∧
    ∃ s, Thread.run m State.new [.start true, .cancel, .join, .die, .destroy] = some (.ok s) ∧
      s.handle = .joinable := ⟨⟨_, rfl, rfl⟩, ⟨_, rfl, rfl⟩⟩

/-- **C35 fails**: joining twice. -/
theorem C35_fails_join_twice (m : Mode) :
    Thread.run m State.new [.start true, .finish, .join, .join] = some .ub := rfl

/-- **C35 fails**: a join before the start makes the destructor forget the thread. -/
theorem C35_fails_join_first (m : Mode) : ∃ s,
    Thread.run m State.new [.join, .start true, .finish, .destroy] = some (.ok s) ∧
      s.handle = .joinable := ⟨_, rfl, rfl⟩

/-- **C35 fails**: after a failed start the object can never be started, and destroying it detaches
an invalid handle. -/
theorem C35_fails_create (m : Mode) :
    Thread.run m State.new [.start false, .destroy] = some .ub ∧
    ∃ s, Thread.run m State.new [.start false, .start true] = some (.ok s) ∧ s.thr = .none := by
  cases m <;> exact ⟨rfl, _, rfl, rfl⟩

/-! ## C74: `Threadable` -/

/-- Undisturbed use: nobody tests the flag while another caller is between test and start, and
threads can be created. -/
def ThreadableLegal (s : Threadable) : TAct → Prop
  | .test _ => s.checked = []
  | .go _ ok => ok = true
  | .finish => True

def ThreadableAllLegal (m : Mode) (s : Threadable) : List TAct → Prop
  | [] => True
  | a :: l => ThreadableLegal s a ∧ ∀ s' r, tstep m s a = some (.ok s' r) → ThreadableAllLegal m s' l

/-- **C74**: in every history of undisturbed starts and ends at most one thread executes `runnable`,
and `isRunning` is true exactly while one does. -/
theorem C74_single_partial (m : Mode) (l : List TAct) (hl : ThreadableAllLegal m Threadable.new l)
    (o : Outcome Threadable) (h : trun m Threadable.new l = some o) :
    ∃ s, o = .ok s ∧ s.running ≤ 1 ∧ (s.flag = true ↔ s.running = 1) := by
  have key : ∀ (l : List TAct) (s : Threadable), ThreadableAllLegal m s l →
      (s.running ≤ 1 ∧ (s.flag = true ↔ s.running = 1) ∧
        (s.checked = [] ∨ ∃ c, s.checked = [c] ∧ s.flag = false)) →
      ∀ o, trun m s l = some o → ∃ s', o = .ok s' ∧ s'.running ≤ 1 ∧ (s'.flag = true ↔ s'.running = 1) := by
    intro l
    induction l with
    | nil =>
      intro s _ hi o h
      simp only [trun, Option.some.injEq] at h
      exact ⟨s, h.symm, hi.1, hi.2.1⟩
    | cons a l ih =>
      rintro ⟨fl, ch, ru, st⟩ hl ⟨h1, h2, h3⟩ o h
      simp only at h1 h2 h3
      cases a with
      | test c =>
        have hc : ch = [] := hl.1
        subst hc
        cases fl
        · have hx : tstep m ⟨false, [], ru, st⟩ (.test c) = some (.ok ⟨false, [c], ru, st⟩ none) := rfl
          simp only [trun, hx] at h
          exact ih _ (hl.2 _ _ hx) ⟨h1, h2, .inr ⟨c, rfl, rfl⟩⟩ o h
        · have hx : tstep m ⟨true, [], ru, st⟩ (.test c) = some (.ok ⟨true, [], ru, st⟩ (some false)) := rfl
          simp only [trun, hx] at h
          exact ih _ (hl.2 _ _ hx) ⟨h1, h2, .inl rfl⟩ o h
      | go c ok =>
        have hok : ok = true := hl.1
        subst hok
        rcases h3 with rfl | ⟨d, rfl, rfl⟩
        · simp [trun, tstep] at h
        · by_cases hcd : c = d
          · subst hcd
            have hru : ru = 0 := by simp at h2; omega
            subst hru
            have hx : tstep m ⟨false, [c], 0, st⟩ (.go c true)
                = some (.ok ⟨true, [], 1, st + 1⟩ (some true)) := by simp [tstep]
            simp only [trun, hx] at h
            exact ih _ (hl.2 _ _ hx) ⟨by simp, by simp, .inl rfl⟩ o h
          · simp [trun, tstep, hcd] at h
      | finish =>
        by_cases hru : ru = 0
        · simp [trun, tstep, hru] at h
        · have hr1 : ru = 1 := by omega
          subst hr1
          have hfl : fl = true := h2.2 rfl
          subst hfl
          have hx : tstep m ⟨true, ch, 1, st⟩ .finish = some (.ok ⟨false, ch, 0, st⟩ none) := by
            simp [tstep]
          simp only [trun, hx] at h
          refine ih _ (hl.2 _ _ hx) ⟨by simp, by simp, ?_⟩ o h
          rcases h3 with rfl | ⟨d, rfl, h4⟩
          · exact .inl rfl
          · cases h4
  exact key l _ hl ⟨by simp [Threadable.new], by simp [Threadable.new], .inl rfl⟩ o h

example : ∃ s, trun .release Threadable.new [.test 0, .go 0 true, .test 1, .finish, .test 1, .go 1 true]
    = some (.ok s) ∧ s.started = 2 ∧ s.running = 1 := ⟨_, rfl, rfl, rfl⟩
example : ThreadableAllLegal .release Threadable.new
    [.test 0, .go 0 true, .test 1, .finish, .test 1, .go 1 true] := by
  simp [ThreadableAllLegal, ThreadableLegal, tstep, Threadable.new]

/-- **C74 fails**: two callers that start at the same time both succeed; then the end of one thread
makes `isRunning` false while the other runs on. -/
theorem C74_fails_race (m : Mode) :
    (∃ s, trun m Threadable.new [.test 0, .test 1, .go 0 true, .go 1 true] = some (.ok s) ∧
      s.running = 2) ∧
    ∃ s, trun m Threadable.new [.test 0, .test 1, .go 0 true, .go 1 true, .finish] = some (.ok s) ∧
      s.running = 1 ∧ s.flag = false := ⟨⟨_, rfl, rfl⟩, ⟨_, rfl, rfl, rfl⟩⟩

/-- **C74 fails**: when the thread cannot be created the flag stays on (debug builds); release builds
detach an invalid handle. -/
theorem C74_fails_create :
    (∃ s, trun .debug Threadable.new [.test 0, .go 0 false] = some (.ok s) ∧ s.running = 0 ∧
      s.flag = true ∧ ∀ c, tstep .debug s (.test c) = some (.ok s (some false))) ∧
    trun .release Threadable.new [.test 0, .go 0 false] = some .ub :=
  ⟨⟨_, rfl, rfl, rfl, fun _ => rfl⟩, rfl⟩

end

/-! ## C36: priorities -/

section
open Ecl.Priority

/-- **C36**, real time levels: on every system with a real time range of at least ten, setting a real
time level succeeds where permitted, and it is read back, whatever was set before. -/
theorem C36_realtime_partial (m : Mode) (r : Rules) (s : Priority.Sys) (l : Level) (k : Int)
    (hk : l.rt = some k) (hmin : 0 ≤ r.rrMin) (hrange : r.rrMin + 10 ≤ r.rrMax)
    (hallow : r.rtAllowed = true) :
    ∃ s', setPriority m r s l = .ok s' true ∧ getPriority r s' = .ok l := by
  have hnot : ¬ (r.rrMin = -1 ∨ r.rrMax = -1) := by omega
  have hdiv : ∀ j : Int, 0 ≤ j → (j * (r.rrMax - r.rrMin)).tdiv 10 = (j * (r.rrMax - r.rrMin)) / 10 := by
    intro j hj
    exact Int.tdiv_eq_ediv_of_nonneg (Int.mul_nonneg hj (by omega))
  have h1 := hdiv 1 (by omega)
  rw [Int.one_mul] at h1
  have h2 := hdiv 2 (by omega)
  have h3 := hdiv 3 (by omega)
  cases l <;> simp [Level.rt] at hk <;> subst hk
  · refine ⟨{ s with rr := some (r.rrMin + (0 * (r.rrMax - r.rrMin)).tdiv 10) }, ?_, ?_⟩
    · have e := hdiv 0 (by omega)
      simp only [setPriority, Level.rt, setRealTime, hnot, if_false, hallow, if_true]
      rw [if_neg (by omega), if_neg (by omega)]
    · have e := hdiv 0 (by omega)
      simp only [getPriority, hnot, if_false]
      rw [if_neg (by omega), if_neg (by omega), if_neg (by omega)]
  · refine ⟨{ s with rr := some (r.rrMin + (1 * (r.rrMax - r.rrMin)).tdiv 10) }, ?_, ?_⟩
    · have e := hdiv 1 (by omega)
      simp only [setPriority, Level.rt, setRealTime, hnot, if_false, hallow, if_true]
      rw [if_neg (by omega), if_neg (by omega)]
    · have e := hdiv 1 (by omega)
      simp only [getPriority, hnot, if_false]
      rw [if_neg (by omega), if_neg (by omega), if_pos (by omega)]
  · refine ⟨{ s with rr := some (r.rrMin + (2 * (r.rrMax - r.rrMin)).tdiv 10) }, ?_, ?_⟩
    · simp only [setPriority, Level.rt, setRealTime, hnot, if_false, hallow, if_true]
      rw [if_neg (by omega), if_neg (by omega)]
    · simp only [getPriority, hnot, if_false]
      rw [if_neg (by omega), if_pos (by omega)]
  · refine ⟨{ s with rr := some (r.rrMin + (3 * (r.rrMax - r.rrMin)).tdiv 10) }, ?_, ?_⟩
    · simp only [setPriority, Level.rt, setRealTime, hnot, if_false, hallow, if_true]
      rw [if_neg (by omega), if_neg (by omega)]
    · simp only [getPriority, hnot, if_false]
      rw [if_pos (by omega)]

/-- Linux: real time priorities 1 to 99. -/
def linuxRules : Rules := ⟨1, 99, true, fun _ => true, 19⟩

example : setPriority .debug linuxRules ⟨none, 0⟩ .rt3 = .ok ⟨some 20, 0⟩ true ∧
    getPriority linuxRules ⟨some 20, 0⟩ = .ok .rt3 := by decide

/-- **C36**, other levels: read back when the thread is not scheduled in real time, the system
permits the nice value and its largest nice value is at least that of the level. -/
theorem C36_nice_partial (m : Mode) (r : Rules) (s : Priority.Sys) (l : Level) (n : Int)
    (hn : niceOf l = some n) (hrr : s.rr = none) (hallow : r.niceAllowed n = true)
    (hmax : n ≤ r.niceMax) :
    ∃ s', setPriority m r s l = .ok s' true ∧ getPriority r s' = .ok l := by
  refine ⟨{ s with nice := n }, ?_, ?_⟩
  · cases l <;> simp [niceOf] at hn <;> subst hn <;>
      simp only [setPriority, Level.rt, niceOf, setpriority] <;>
      simp [hallow, Int.min_eq_left hmax] <;> simp_all [Int.min_eq_left]
  · cases l <;> simp [niceOf] at hn <;> subst hn <;> simp [getPriority, hrr] <;> decide

example : setPriority .debug linuxRules ⟨none, 0⟩ .low = .ok ⟨none, 10⟩ true ∧
    getPriority linuxRules ⟨none, 10⟩ = .ok .low := by decide

/-- **C36 fails** on every system whose largest nice value is 19 (Linux): the background level is
set to 19 and read back as normal. -/
theorem C36_fails_background (m : Mode) (r : Rules) (s : Priority.Sys) (hrr : s.rr = none)
    (hmax : r.niceMax = 19) (hallow : r.niceAllowed 20 = true) :
    ∃ s', setPriority m r s .background = .ok s' true ∧ getPriority r s' = .ok .normal := by
  refine ⟨{ s with nice := 19 }, ?_, ?_⟩
  · simp [setPriority, Level.rt, niceOf, setpriority, hallow, hmax]; rfl
  · simp [getPriority, hrr]

/-- **C36 fails**: once a real time level is set, every other level is "set" successfully without
effect on what is read back. -/
theorem C36_fails_after_realtime (m : Mode) (r : Rules) (s : Priority.Sys) (p : Int)
    (hrr : s.rr = some p) (l : Level) (hl : l ≠ .critical) (hrt : l.rt = none) :
    ∃ s', setPriority m r s l = .ok s' true ∧ getPriority r s' = getPriority r s := by
  have hset : ∀ n, (setpriority r s n).1.rr = s.rr := by
    intro n; unfold setpriority; split <;> rfl
  have hget : ∀ s1 s2 : Priority.Sys, s1.rr = some p → s2.rr = some p →
      getPriority r s1 = getPriority r s2 := by
    intro s1 s2 h1 h2; simp only [getPriority, h1, h2]
  cases hn : niceOf l with
  | none => exact ⟨s, by simp [setPriority, hrt, hn], rfl⟩
  | some n =>
    exact ⟨(setpriority r s n).1, by simp [setPriority, hrt, hn, hl],
      hget _ _ (by rw [hset, hrr]) hrr⟩

/-- **C36**: a critical or real time level that the system refuses is reported, and nothing has
changed. -/
theorem C36_refused_reported (r : Rules) (s : Priority.Sys) (l : Level)
    (hl : (l = .critical ∧ r.niceAllowed (-20) = false) ∨
      (l.rt ≠ none ∧ r.rtAllowed = false ∧ 0 ≤ r.rrMin ∧ r.rrMin ≤ r.rrMax)) :
    setPriority .debug r s l = .throw s .permissionsError ∧ setPriority .release r s l = .ok s false := by
  rcases hl with ⟨rfl, h⟩ | ⟨hk, h, h1, h2⟩
  · simp [setPriority, Level.rt, niceOf, setpriority, h]
  · have hnot : ¬ (r.rrMin = -1 ∨ r.rrMax = -1) := by omega
    have hdiv : ∀ j : Int, 0 ≤ j → (j * (r.rrMax - r.rrMin)).tdiv 10 = (j * (r.rrMax - r.rrMin)) / 10 := by
      intro j hj
      exact Int.tdiv_eq_ediv_of_nonneg (Int.mul_nonneg hj (by omega))
    have key : ∀ m k, l.rt = some k → 0 ≤ k → k ≤ 3 →
        setPriority m r s l = setRealTime m r s (r.rrMin + (k * (r.rrMax - r.rrMin)).tdiv 10) ∧
        ¬ r.rrMin + (k * (r.rrMax - r.rrMin)).tdiv 10 < r.rrMin ∧
        ¬ r.rrMin + (k * (r.rrMax - r.rrMin)).tdiv 10 > r.rrMax := by
      intro m k hk h0 h3
      refine ⟨by simp only [setPriority, hk, hnot, if_false], ?_, ?_⟩
      · rw [hdiv k h0]
        have : 0 ≤ k * (r.rrMax - r.rrMin) := Int.mul_nonneg h0 (by omega)
        omega
      · rw [hdiv k h0]
        have : k * (r.rrMax - r.rrMin) ≤ 3 * (r.rrMax - r.rrMin) :=
          Int.mul_le_mul_of_nonneg_right h3 (by omega)
        omega
    obtain ⟨k, hk', h0, h3⟩ : ∃ k, l.rt = some k ∧ 0 ≤ k ∧ k ≤ 3 := by
      cases l <;> simp [Level.rt] at hk ⊢
    constructor
    · obtain ⟨e, e1, e2⟩ := key .debug k hk' h0 h3
      simp only [e, setRealTime, e1, e2, if_false, h]; rfl
    · obtain ⟨e, e1, e2⟩ := key .release k hk' h0 h3
      simp only [e, setRealTime, e1, e2, if_false, h]; rfl

example : setPriority .release ⟨1, 99, false, fun n => decide (0 ≤ n), 19⟩ ⟨none, 0⟩ .critical
    = .ok ⟨none, 0⟩ false := by decide

/-- **C36 fails**: a level the system refuses is reported as set (all but critical). -/
theorem C36_fails_refused (m : Mode) (r : Rules) (s : Priority.Sys) (hn : r.niceAllowed (-10) = false) :
    setPriority m r s .high = .ok s true := by
  simp [setPriority, Level.rt, niceOf, setpriority, hn]

/-- **C36 fails** on a system with a real time range below ten: level 1 is read back as level 2. -/
theorem C36_fails_small_range (m : Mode) (r : Rules) (s : Priority.Sys) (hmin : 0 ≤ r.rrMin)
    (h5 : r.rrMin + 5 ≤ r.rrMax) (h9 : r.rrMax ≤ r.rrMin + 9) (hallow : r.rtAllowed = true) :
    ∃ s', setPriority m r s .rt1 = .ok s' true ∧ getPriority r s' = .ok .rt2 := by
  have hnot : ¬ (r.rrMin = -1 ∨ r.rrMax = -1) := by omega
  have hdiv : ∀ j : Int, 0 ≤ j → (j * (r.rrMax - r.rrMin)).tdiv 10 = (j * (r.rrMax - r.rrMin)) / 10 := by
    intro j hj
    exact Int.tdiv_eq_ediv_of_nonneg (Int.mul_nonneg hj (by omega))
  have h0 := hdiv 0 (by omega)
  have h1 := hdiv 1 (by omega)
  rw [Int.one_mul] at h1
  have h2 := hdiv 2 (by omega)
  have h3 := hdiv 3 (by omega)
  refine ⟨{ s with rr := some (r.rrMin + (0 * (r.rrMax - r.rrMin)).tdiv 10) }, ?_, ?_⟩
  · simp only [setPriority, Level.rt, setRealTime, hnot, if_false, hallow, if_true]
    rw [if_neg (by omega), if_neg (by omega)]
  · simp only [getPriority, hnot, if_false]
    rw [if_neg (by omega), if_neg (by omega), if_pos (by omega)]

end
end Ecl.Props
