import Verif.Core.CInt
import Verif.Core.Outcome

/-!
# Model of `ecl_threads/src/lib/mutex_pos.cpp`

A mutex belongs to no thread or to one.  Release builds use a NORMAL mutex, debug builds an
ERRORCHECK mutex (`43-47`); creating it is assumed to succeed.  The counter `number_locks` is an
`unsigned int`; its unsynchronised changes are taken to be atomic (in C++ they race).
-/
set_option autoImplicit false

namespace Ecl.Mutex

/-- The members: the system's mutex, here its owner, and `number_locks` (`mutex_pos.cpp:33-34`). -/
structure Mutex where
  owner : Option Nat
  locks : Nat
  deriving DecidableEq, Repr

/-- The constructor without argument (`mutex_pos.cpp:33-60`). -/
def Mutex.new : Mutex := ⟨none, 0⟩

/-- Results of the pthread calls. (Operating system, behind `mutex_pos.cpp:72, 83, 98, 115`.) -/
inductive PR where
  | ok | busy | timedOut | deadlock | inval | perm
  deriving DecidableEq, Repr

/-- `pthread_mutex_lock` by thread `t`; `none` when it blocks.  Relocking deadlocks a NORMAL mutex
and is reported by an ERRORCHECK one. (Operating system, behind `mutex_pos.cpp:72`.) -/
def sysLock (m : Mode) (o : Option Nat) (t : Nat) : Option (Option Nat × PR) :=
  match o with
  | none => some (some t, .ok)
  | some u =>
    match m with
    | .debug => if u = t then some (some u, .deadlock) else none
    | .release => none

/-- `pthread_mutex_trylock`. (Operating system, behind `mutex_pos.cpp:98`.) -/
def sysTry (o : Option Nat) (t : Nat) : Option Nat × PR :=
  match o with
  | none => (some t, .ok)
  | some u => (some u, .busy)

/-- `pthread_mutex_unlock`: undefined for a NORMAL mutex the thread does not own; an ERRORCHECK
mutex reports it. (Operating system, behind `mutex_pos.cpp:115`.) -/
def sysUnlock (m : Mode) (o : Option Nat) (t : Nat) : Outcome (Option Nat × PR) :=
  if o = some t then .ok (none, .ok)
  else
    match m with
    | .debug => .ok (o, .perm)
    | .release => .ub

/-- `pthread_mutex_timedlock` with the absolute time `(sec, nsec)`, called at time `now`
(nanoseconds since the epoch); if another thread owns the mutex it lets it go at time `free`
(`none`: never).  Gives the new owner, the result and the time of return.  The timeout is not looked
at when the mutex is free. (Operating system, behind `mutex_pos.cpp:83`.) -/
def sysTimed (m : Mode) (o : Option Nat) (t : Nat) (now : Int) (free : Option Int) (sec nsec : Int) :
    Option Nat × PR × Int :=
  match o with
  | none => (some t, .ok, now)
  | some u =>
    if u = t ∧ m = .debug then (some u, .deadlock, now)
    else if nsec < 0 ∨ nsec ≥ 1000000000 then (some u, .inval, now)
    else
      let abs := sec * 1000000000 + nsec
      if u = t then (some u, .timedOut, max now abs)
      else
        match free with
        | some f => if f ≤ abs then (some t, .ok, f) else (some u, .timedOut, max now abs)
        | none => (some u, .timedOut, max now abs)

/-- Error flags (`mutex_pos.hpp:242-285`). -/
def lockFlag : PR → Flag
  | .deadlock => .usageError
  | .inval => .invalidInputError
  | .busy => .configurationError
  | _ => .unknownError

/-- `throwMutexTimedLockException` (`mutex_pos.hpp:242-285`). -/
def timedFlag : PR → Flag
  | .deadlock | .inval => .usageError
  | _ => .unknownError

/-- `throwMutexUnLockException` (`mutex_pos.hpp:242-285`). -/
def unlockFlag : PR → Flag
  | .inval => .invalidInputError
  | .perm => .permissionsError
  | _ => .unknownError

/-- `Mutex::lock` (`69-75`); `none` when it blocks. -/
def lock (m : Mode) (s : Mutex) (t : Nat) : Option (Res Mutex Bool) :=
  let s : Mutex := { s with locks := u32 (s.locks + 1) }
  match sysLock m s.owner t with
  | none => none
  | some (o, r) =>
    let s : Mutex := { s with owner := o }
    if m = .debug ∧ r ≠ .ok then some (.throw s (lockFlag r)) else some (.ok s true)

/-- `Mutex::trylock()` (`96-110`). -/
def trylock (m : Mode) (s : Mutex) (t : Nat) : Res Mutex Bool :=
  let (o, r) := sysTry s.owner t
  let s : Mutex := { s with owner := o }
  if r = .busy then .ok s false
  else if m = .debug ∧ r ≠ .ok then .throw s (lockFlag r)
  else .ok { s with locks := u32 (s.locks + 1) } true

/-- `Mutex::trylock(Duration&)` (`77-94`): the duration is handed on as an absolute time.  The
answer is paired with the time of return. -/
def trylockFor (m : Mode) (s : Mutex) (t : Nat) (now : Int) (free : Option Int) (dsec dnsec : Int) :
    Res Mutex (Bool × Int) :=
  let (o, r, at_) := sysTimed m s.owner t now free dsec dnsec
  let s : Mutex := { s with owner := o }
  if r = .timedOut then .ok s (false, at_)
  else if m = .debug ∧ r ≠ .ok then .throw s (timedFlag r)
  else .ok { s with locks := u32 (s.locks + 1) } (true, at_)

/-- `Mutex::unlock` (`112-118`). -/
def unlock (m : Mode) (s : Mutex) (t : Nat) : Res Mutex Bool :=
  let s : Mutex := { s with locks := u32 ((s.locks : Int) - 1) }
  match sysUnlock m s.owner t with
  | .ok (o, r) =>
    let s : Mutex := { s with owner := o }
    if m = .debug ∧ r ≠ .ok then .throw s (unlockFlag r) else .ok s true
  | .throw e => .throw s e
  | .ub => .ub

/-- Calls. (`mutex_pos.cpp:69-118`.) -/
inductive Op where
  | lock | trylock | unlock
  deriving DecidableEq, Repr

/-- One call by thread `t`; `none` when it would block. (`mutex_pos.cpp:69-118`.) -/
def step (m : Mode) (s : Mutex) (t : Nat) : Op → Option (Res Mutex Bool)
  | .lock => lock m s t
  | .trylock => some (trylock m s t)
  | .unlock => some (unlock m s t)

/-- Interleavings of calls that do not block, with their answers (`none`: blocked or undefined).
(Calls of `mutex_pos.cpp:69-118`.) -/
def run (m : Mode) : Mutex → List (Nat × Op) → Option (Mutex × List (Obs Bool))
  | s, [] => some (s, [])
  | s, (t, op) :: l =>
    match step m s t op with
    | some (.ok s' b) => (run m s' l).map fun r => (r.1, .ok b :: r.2)
    | some (.throw s' e) => (run m s' l).map fun r => (r.1, .error e :: r.2)
    | some .ub => none
    | none => none

end Ecl.Mutex
