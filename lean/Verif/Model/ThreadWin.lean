import Verif.Model.Priority

/-!
# Model of threads and priorities on Windows

`ecl_threads/src/lib/thread_win.cpp`, `ecl_threads/include/ecl/threads/thread_win.hpp`,
`ecl_threads/src/lib/priority_win.cpp`.  The priorities of the system are the numbers of `winbase.h`.
-/
set_option autoImplicit false

namespace Ecl.ThreadWin
open Ecl.Priority (Level)

/-- `THREAD_PRIORITY_TIME_CRITICAL`, `_HIGHEST`, `_ABOVE_NORMAL`, `_NORMAL`, `_BELOW_NORMAL`, `_IDLE`, and
`HIGH_PRIORITY_CLASS` (which is not a priority of threads). (Used at `priority_win.cpp:39-110`.) -/
def timeCritical : Int := 15
/-- (Used at `priority_win.cpp:39-110`.) -/
def highest : Int := 2
/-- (Used at `priority_win.cpp:39-110`.) -/
def aboveNormal : Int := 1
/-- (Used at `priority_win.cpp:39-110`.) -/
def normal : Int := 0
/-- (Used at `priority_win.cpp:39-110`.) -/
def belowNormal : Int := -1
/-- (Used at `priority_win.cpp:39-110`.) -/
def idle : Int := -15
/-- (Used at `priority_win.cpp:39-79`.) -/
def highPriorityClass : Int := 128

/-- Does `SetThreadPriority` take this number?  (Process classes other than real time; -2 is
`THREAD_PRIORITY_LOWEST`.  The two numbers for background mode are left out.) -/
def accepted (p : Int) : Bool := p = 15 || p = -15 || (-2 ≤ p && p ≤ 2)

/-- `SetThreadPriority`: the new priority and whether the call succeeded.  `may`: the caller has the right to
set it. (Called at `priority_win.cpp:39-79`.) -/
def setThreadPriority (may : Bool) (cur p : Int) : Int × Bool :=
  if accepted p && may then (p, true) else (cur, false)

/-- `priority >= RealTimePriority1`. -/
def isRealTime (l : Level) : Bool := l.rt.isSome

/-! ## Priorities -/

/-- `set_priority` (`priority_win.cpp:39-79`, real time: `181-198`), with the present priority of the calling
thread; `f` is the flag of the exception, made from whatever `errno` holds (`priority_win.hpp:130-144`). -/
def setPriority (m : Mode) (f : Flag) (may : Bool) (cur : Int) (l : Level) : Res Int Bool :=
  if isRealTime l then
    let r := setThreadPriority may cur timeCritical
    .ok r.1 r.2
  else
    let r : Int × Bool := match l with
      | .critical => setThreadPriority may cur highest
      | .high => setThreadPriority may cur aboveNormal
      | .normal => setThreadPriority may cur normal
      | .low => setThreadPriority may cur belowNormal
      | .background => setThreadPriority may cur idle
      | _ => (cur, false)
    if r.2 then .ok r.1 true
    else match m with
      | .debug => .throw r.1 f
      | .release => .ok r.1 false

/-- `get_priority` (`81-110`). -/
def getPriority (cur : Int) : Level :=
  if cur = timeCritical then .rt1
  else if cur = highest then .critical
  else if cur = aboveNormal then .high
  else if cur = normal then .normal
  else if cur = belowNormal then .low
  else if cur = idle then .background
  else .unknown

/-! ## Threads -/

/-- The thread in the system. (Behind `thread_win.cpp:30-129`.) -/
inductive Thr where
  | none | running | ended
  deriving DecidableEq, Repr

/-- A `Thread` (`thread_win.hpp:404-407`) and its heap object `*thread_task`.  `prio`: priority of the thread in
the system.  `terminated`: threads that were terminated but may still be executing (`TerminateThread` does not
wait).  `created`, `news`, `deletes` count threads, and tasks made and deleted. -/
structure State where
  started : Bool
  joinRequested : Bool
  task : Bool
  handle : Bool
  thr : Thr
  prio : Int
  terminated : Nat
  created : Nat
  news : Nat
  deletes : Nat
  deriving DecidableEq, Repr

/-- Default constructor (`thread_win.hpp:235-240`). -/
def State.new : State := ⟨false, false, false, false, .none, 0, 0, 0, 0, 0⟩

/-- Calls, and what the threads do: `finish`, the function returns; `late`, a terminated thread goes on for a
moment; `gone`, it has stopped. (`thread_win.cpp:30-129`.) -/
inductive Op where
  | start (created : Bool) (l : Level)
  | isRunning
  | cancel
  | join
  | finish
  | late
  | gone
  deriving DecidableEq, Repr

/-- (`thread_win.cpp:30-129`.) -/
inductive Ans where
  | done | busy | createFailed | bool (b : Bool)
  deriving DecidableEq, Repr

/-- The priority part of `start` (`thread_win.cpp:69-90`; `thread_win.hpp:469-490`, `527-548`). -/
def startPriority (may : Bool) (l : Level) : Int × Bool :=
  let r := if isRealTime l then setThreadPriority may normal timeCritical else (normal, false)
  match l with
  | .critical => setThreadPriority may r.1 highPriorityClass
  | .high => setThreadPriority may r.1 aboveNormal
  | .low => setThreadPriority may r.1 belowNormal
  | .background => setThreadPriority may r.1 idle
  | _ => r

/-- One call or event; `none`: not possible now (a `join` that waits, an event of a thread that is not there).
* `start` (`thread_win.cpp:41-97`, `thread_win.hpp:442-555`).
* `isRunning` (`thread_win.hpp:376`).
* `cancel` (`thread_win.cpp:103-121`), which is also the destructor (`99-101`).
* `join` (`123-129`).
* end of `EntryPoint` (`thread_win.hpp:94-98`, `138-142`): the task is not deleted.
A terminated thread that still executes uses a task that is deleted (its function object). -/
def step (m : Mode) (f : Flag) (may : Bool) (s : State) : Op → Option (Res State Ans)
  | .start ok l =>
    if s.started then
      match m with
      | .debug => some (.throw s .busyError)
      | .release => some (.ok s .busy)
    else
      let s := { s with started := true, task := true, news := s.news + 1 }
      if ok then
        let p := startPriority may l
        let s := { s with handle := true, thr := .running, created := s.created + 1, prio := p.1 }
        if p.2 then some (.ok s .done)
        else match m with
          | .debug => some (.throw s f)
          | .release => some (.ok s .done)
      else
        match m with
        | .debug => some (.throw s .unknownError)
        | .release => some (.ok s .createFailed)
  | .isRunning => some (.ok s (.bool s.task))
  | .cancel =>
    let s := if s.handle then
        { s with handle := false, thr := .none, terminated := s.terminated + (if s.thr = .running then 1 else 0) }
      else s
    let s := if s.task then { s with task := false, deletes := s.deletes + 1 } else s
    some (.ok { s with started := false, joinRequested := false } .done)
  | .join =>
    let s := { s with joinRequested := true }
    if s.handle && s.thr = .running then none else some (.ok s .done)
  | .finish => if s.thr = .running then some (.ok { s with thr := .ended } .done) else none
  | .late => if s.terminated = 0 then none else some .ub
  | .gone => if s.terminated = 0 then none else some (.ok { s with terminated := s.terminated - 1 } .done)

/-- A history; `none` when something in it is not possible. (`thread_win.cpp:30-129`.) -/
def run (m : Mode) (f : Flag) (may : Bool) : State → List Op → Option (Outcome State)
  | s, [] => some (.ok s)
  | s, op :: l =>
    match step m f may s op with
    | none => none
    | some (.ok s' _) => run m f may s' l
    | some (.throw s' _) => run m f may s' l
    | some .ub => some .ub

end Ecl.ThreadWin
