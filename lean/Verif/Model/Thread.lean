import Verif.Core.Outcome

/-!
# Model of `ecl_threads/thread_pos` and `threadable.hpp`

One `Thread` object and the thread it creates.  Actions of the thread itself (`finish`, `die`) are
events of their own, interleaved with the calls.  Attributes, stack size and priority are not
modelled; `pthread_create` succeeds or fails as told.
-/
set_option autoImplicit false

namespace Ecl.Thread

/-- The thread in the system: not created, running, asked to cancel, ended. (Behind
`thread_pos.cpp:33-125`.) -/
inductive Thr where
  | none | running | cancelling | ended
  deriving DecidableEq, Repr

/-- The system's bookkeeping for the handle: no valid handle, joinable, released (joined or
detached). (Behind `thread_pos.cpp:33-125`.) -/
inductive Handle where
  | invalid | joinable | released
  deriving DecidableEq, Repr

/-- `Thread` (`thread_pos.hpp:417-422`) with the heap object `*thread_task`: `task` tells whether the
pointer is non-null, `live` whether the object exists; `created` and `deletes` count. -/
structure State where
  started : Bool
  joinRequested : Bool
  task : Bool
  live : Bool
  thr : Thr
  handle : Handle
  created : Nat
  deletes : Nat
  destroyed : Bool
  deriving DecidableEq, Repr

/-- Default constructor (`thread_pos.hpp:242-248`). -/
def State.new : State := ⟨false, false, false, false, .none, .invalid, 0, 0, false⟩

/-- Calls, and what the thread does (`thread_pos.cpp:33-125`, `thread_pos.hpp:94-149`). -/
inductive Op where
  | start (created : Bool)
  | isRunning
  | cancel
  | join
  | destroy
  /-- The function returns and `EntryPoint` deletes the task. -/
  | finish
  /-- A requested cancellation takes effect. -/
  | die
  deriving DecidableEq, Repr

/-- Answers: `done`, an error value, or that of `isRunning`. (`thread_pos.cpp:33-125`.) -/
inductive Ans where
  | done | busy | createFailed | bool (b : Bool)
  deriving DecidableEq, Repr

/-- `delete` of the task: undefined when it is gone. (`thread_pos.hpp:94-101`, `142-149`,
`thread_pos.cpp:63-101`.) -/
def deleteTask (s : State) : Outcome State :=
  if s.live then .ok { s with live := false, deletes := s.deletes + 1 } else .ub

/-- One call or event; `none`: not possible now (a blocked `join`, a call on a destroyed object, an
event of a thread that is not there).
* `start` (`thread_pos.cpp:41-61`, `thread_pos.hpp:454-496`); the error of a failed creation is left
  abstract (`createFailed`, thrown in debug builds as the flag `unknownError`);
* `isRunning` (`thread_pos.hpp:384`);
* `cancel` (`thread_pos.cpp:80-92`): `pthread_cancel` of an invalid handle, or of a released one
  whose thread has ended, is undefined;
* `join` (`94-101`): waits for the end; joining twice is undefined;
* destructor (`63-79`): `pthread_detach`;
* end of `EntryPoint` (`thread_pos.hpp:94-101`, `142-149`). -/
def step (m : Mode) (s : State) (op : Op) : Option (Res State Ans) :=
  match op with
  | .finish =>
    match s.thr with
    | .running | .cancelling =>
      match deleteTask s with
      | .ok s => some (.ok { s with thr := .ended } .done)
      | _ => some .ub
    | _ => none
  | .die => if s.thr = .cancelling then some (.ok { s with thr := .ended } .done) else none
  | op =>
    if s.destroyed then none
    else
      match op with
      | .start ok =>
        if s.started then
          match m with
          | .debug => some (.throw s .busyError)
          | .release => some (.ok s .busy)
        else
          let s := { s with started := true, task := true, live := true }
          if ok then
            some (.ok { s with thr := .running, handle := .joinable, created := s.created + 1 } .done)
          else
            let s := { s with task := false, live := false, deletes := s.deletes + 1 }
            match m with
            | .debug => some (.throw s .unknownError)
            | .release => some (.ok s .createFailed)
      | .isRunning => some (.ok s (.bool s.task))
      | .cancel =>
        if s.handle = .invalid ∨ (s.handle = .released ∧ s.thr = .ended) then some .ub
        else
          let s := if s.thr = .running then { s with thr := .cancelling } else s
          if s.task then
            match deleteTask s with
            | .ok s => some (.ok { s with task := false } .done)
            | _ => some .ub
          else some (.ok s .done)
      | .join =>
        let s := { s with joinRequested := true }
        if s.task then
          match s.handle with
          | .joinable => if s.thr = .ended then some (.ok { s with handle := .released } .done) else none
          | _ => some .ub
        else some (.ok s .done)
      | .destroy =>
        let s := { s with destroyed := true }
        if s.started && !s.joinRequested then
          match s.handle with
          | .joinable => some (.ok { s with handle := .released } .done)
          | _ => some .ub
        else some (.ok s .done)
      | _ => none

/-- The events of a history that can happen one after the other. (`thread_pos.cpp:33-125`.) -/
def run (m : Mode) : State → List Op → Option (Outcome State)
  | s, [] => some (.ok s)
  | s, op :: l =>
    match step m s op with
    | none => none
    | some (.ok s' _) => run m s' l
    | some (.throw s' _) => run m s' l
    | some .ub => some .ub

/-! ## `Threadable` -/

/-- `Threadable` (`threadable.hpp:66-102`): the flag, the callers that have seen it false and not
yet set it, and the number of threads executing `runnable`. -/
structure Threadable where
  flag : Bool
  checked : List Nat
  running : Nat
  started : Nat
  deriving DecidableEq, Repr

/-- Constructor (`threadable.hpp:93`). -/
def Threadable.new : Threadable := ⟨false, [], 0, 0⟩

/-- Atomic actions: a caller tests the flag (`80`), sets it and creates the (detached) thread (`81-83`),
a thread runs to its end (`98-101`). -/
inductive TAct where
  | test (c : Nat)
  | go (c : Nat) (created : Bool)
  | finish
  deriving DecidableEq, Repr

/-- One action and the answer of `start`, where it gives one.  When the thread cannot be created, the
constructor of `Thread` throws in debug builds; in release builds its destructor detaches an invalid
handle. (`threadable.hpp:66-102`.) -/
def tstep (m : Mode) (s : Threadable) : TAct → Option (Res Threadable (Option Bool))
  | .test c =>
    if c ∈ s.checked then none
    else if s.flag then some (.ok s (some false))
    else some (.ok { s with checked := c :: s.checked } none)
  | .go c ok =>
    if c ∈ s.checked then
      let s := { s with flag := true, checked := s.checked.erase c }
      if ok then some (.ok { s with running := s.running + 1, started := s.started + 1 } (some true))
      else
        match m with
        | .debug => some (.throw s .unknownError)
        | .release => some .ub
    else none
  | .finish =>
    if s.running = 0 then none
    else some (.ok { s with running := s.running - 1, flag := false } none)

/-- The actions one after the other (`threadable.hpp:66-102`). -/
def trun (m : Mode) : Threadable → List TAct → Option (Outcome Threadable)
  | s, [] => some (.ok s)
  | s, a :: l =>
    match tstep m s a with
    | none => none
    | some (.ok s' _) => trun m s' l
    | some (.throw s' _) => trun m s' l
    | some .ub => some .ub

end Ecl.Thread
