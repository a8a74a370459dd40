import Verif.Core.Outcome
import Mathlib.Logic.Function.Basic

/-!
# Model of the mutex on Windows

`ecl_threads/src/lib/mutex_w32.cpp`, `ecl_threads/include/ecl/threads/mutex_w32.hpp`.  `n` threads use one
mutex.  The steps are the calls of the system (`EnterCriticalSection`, `LeaveCriticalSection`, the
interlocked operations) and the plain test of `number_locks` in `trylock`.  A critical section may be
entered again by the thread that owns it.  Wrap-around of the 32 bit counter is not represented.
-/
set_option autoImplicit false

namespace Ecl.MutexWin
variable {n : Nat}

/-- Where a thread is: in no call; in `trylock`, past the test (`53`); before or waiting in
`EnterCriticalSection` (`45`); in `unlock`, before `InterlockedDecrement` (`62`). -/
inductive Pc where
  | idle
  | checked
  | entering
  | leaving
  deriving DecidableEq, Repr

/-- `cs`: the critical section, its owner and how often the owner entered it.  `held i`: how many calls of
`lock` or `trylock` by thread `i` have given it the mutex, less its calls of `unlock`.
(`mutex_w32.hpp`; `mutex_w32.cpp:32-63`.) -/
structure State (n : Nat) where
  cs : Option (Fin n × Nat)
  locks : Nat
  pc : Fin n → Pc
  held : Fin n → Nat

/-- `Mutex(false)` (`32-37`). -/
def init : State n := ⟨none, 0, fun _ => .idle, fun _ => 0⟩

/-- The beginning of a call, or (`go`) the next step of the call that the thread is in.
(`mutex_w32.cpp:43-63`.) -/
inductive Event (n : Nat) where
  | lock (i : Fin n)
  | trylock (i : Fin n)
  | unlock (i : Fin n)
  | go (i : Fin n)
  deriving DecidableEq, Repr

/-- `EnterCriticalSection`: gives the section, or `none` when the thread has to wait. (Operating
system, behind `mutex_w32.cpp:45`.) -/
def enter (cs : Option (Fin n × Nat)) (i : Fin n) : Option (Fin n × Nat) :=
  match cs with
  | none => some (i, 1)
  | some (j, k) => if j = i then some (i, k + 1) else none

/-- `LeaveCriticalSection`: undefined for a thread that does not own the section. (Operating
system, behind `mutex_w32.cpp:61`.) -/
def leave (cs : Option (Fin n × Nat)) (i : Fin n) : Outcome (Option (Fin n × Nat)) :=
  match cs with
  | none => .ub
  | some (j, k) => if j = i then .ok (if k = 1 then none else some (i, k - 1)) else .ub

/-- One step; the second component is the result of the `lock` (`true`) or `trylock` that returns by it.
What cannot happen now changes nothing.  `lock`: `43-46`; `trylock`: `52-57` (with a duration: `48-50`, the
same); `unlock`: `59-63`. -/
def step (s : State n) : Event n → Outcome (State n × Option Bool)
  | .lock i =>
    if s.pc i = .idle then .ok ({ s with locks := s.locks + 1, pc := Function.update s.pc i .entering }, none)
    else .ok (s, none)
  | .trylock i =>
    if s.pc i = .idle then
      if s.locks > 0 then .ok (s, some false)
      else .ok ({ s with pc := Function.update s.pc i .checked }, none)
    else .ok (s, none)
  | .unlock i =>
    if s.pc i = .idle then
      leave s.cs i >>= fun cs =>
      .ok ({ s with cs := cs, pc := Function.update s.pc i .leaving,
                    held := Function.update s.held i (s.held i - 1) }, none)
    else .ok (s, none)
  | .go i =>
    match s.pc i with
    | .idle => .ok (s, none)
    | .checked => .ok ({ s with locks := s.locks + 1, pc := Function.update s.pc i .entering }, none)
    | .entering =>
      match enter s.cs i with
      | none => .ok (s, none)
      | some cs => .ok ({ s with cs := some cs, pc := Function.update s.pc i .idle,
                                 held := Function.update s.held i (s.held i + 1) }, some true)
    | .leaving => .ok ({ s with locks := s.locks - 1, pc := Function.update s.pc i .idle }, none)

/-- A schedule, and the results given. (Calls of `mutex_w32.cpp:43-63`.) -/
def run : State n → List (Event n) → Outcome (State n × List Bool)
  | s, [] => .ok (s, [])
  | s, e :: es =>
    step s e >>= fun r => run r.1 es >>= fun q => .ok (q.1, r.2.toList ++ q.2)

end Ecl.MutexWin
