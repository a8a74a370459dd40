import Verif.Core.Outcome
import Mathlib.Logic.Function.Basic

/-!
# Model of `SigSlot::process` and `~SigSlot` with several threads

One endpoint, any number of threads that call its `process`, and one thread that destroys it
(`ecl_sigslots/include/ecl/sigslots/sigslot.hpp:91-95`, `123-130`; the same code again in `254-258`,
`286-294`).  Each access to the mutex and each load and store of `processing_count` is one step, and the
steps of the threads come in any order.  (The count is a plain `unsigned int`: in C++ a program in which two
threads meet there is undefined as it is.  Here it gets the behaviour that a processor gives it.)

The mutex is `PTHREAD_MUTEX_NORMAL` in release builds and `PTHREAD_MUTEX_ERRORCHECK` in debug builds
(`ecl_threads/src/lib/mutex_pos.cpp:43-46`): to unlock it from a thread that does not hold it is undefined
in the first case, and an error that is thrown in the second (`112-118`,
`ecl_threads/include/ecl/threads/mutex_pos.hpp:281`).
-/
set_option autoImplicit false

namespace Ecl.SigSlots.Threads

/-- Where a running `process` is: before `mutex.trylock()`, before `++processing_count`, between its load
and its store, in the function, before `--processing_count`, between its load and its store, before the
test of the new value. (`sigslot.hpp:123-130`.) -/
inductive Pc where
  | called
  | tried
  | incr (v : Nat)
  | running
  | returned
  | decr (v : Nat)
  | test (v : Nat)
  deriving DecidableEq, Repr

/-- Who holds the mutex. (`sigslot.hpp:193`.) -/
inductive Owner where
  | nobody
  | thread (i : Nat)
  | destroyer
  deriving DecidableEq, Repr

/-- Where the destructor is: not called yet; past `disconnect()` and before `mutex.lock()`; before
`delete function`; the object is gone. (`sigslot.hpp:91-95`.) -/
inductive Dtor where
  | idle
  | waiting
  | holding
  | gone
  deriving DecidableEq, Repr

/-- `threads i`: the running `process` calls of thread `i`, the innermost first (the function may cause
`process` to be called again). (`sigslot.hpp:192-199`.) -/
structure State where
  owner : Owner
  count : Nat
  threads : Nat → List Pc
  dtor : Dtor

/-- The constructors (`61-82`). -/
def init : State := ⟨.nobody, 0, fun _ => [], .idle⟩

/-- `call i`: an emission of thread `i` has taken the endpoint from the set of subscribers and calls
`process` (`112-113`).  `step i`: thread `i` goes on with its innermost `process`.  `destroy`: the last
handle is destroyed and `disconnect()` has returned.  `proceed`: the destructor goes on, if it can. -/
inductive Event where
  | call (i : Nat)
  | step (i : Nat)
  | destroy
  | proceed
  deriving DecidableEq, Repr

/-- `unsigned int` arithmetic. (`sigslot.hpp:125`.) -/
def plusOne (v : Nat) : Nat := (v + 1) % 2 ^ 32
/-- (`sigslot.hpp:127`.) -/
def minusOne (v : Nat) : Nat := (v + (2 ^ 32 - 1)) % 2 ^ 32

/-- `mutex.unlock()` by thread `i` (`mutex_pos.cpp:112-118`). -/
def unlock (mode : Mode) (s : State) (i : Nat) : Outcome State :=
  if s.owner = .thread i then .ok { s with owner := .nobody }
  else match mode with
    | .debug => .throw .permissionsError
    | .release => .ub

/-- The next step of the innermost `process` of thread `i` (`123-130`). -/
def stepThread (mode : Mode) (s : State) (i : Nat) : Outcome State :=
  let go (l : List Pc) : State := { s with threads := Function.update s.threads i l }
  match s.threads i with
  | [] => .ok s
  | pc :: l =>
    if s.dtor = .gone then .ub
    else match pc with
      | .called => .ok { go (.tried :: l) with owner := if s.owner = .nobody then .thread i else s.owner }
      | .tried => .ok (go (.incr s.count :: l))
      | .incr v => .ok { go (.running :: l) with count := plusOne v }
      | .running => .ok (go (.returned :: l))
      | .returned => .ok (go (.decr s.count :: l))
      | .decr v => .ok { go (.test (minusOne v) :: l) with count := minusOne v }
      | .test v => if v = 0 then unlock mode (go l) i else .ok (go l)

/-- One event; what cannot happen now changes nothing (`mutex.lock()` waits).
(`sigslot.hpp:91-95`, `123-130`.) -/
def step (mode : Mode) (s : State) : Event → Outcome State
  | .call i =>
    match s.threads i with
    | [] => .ok { s with threads := Function.update s.threads i [.called] }
    | .running :: l => .ok { s with threads := Function.update s.threads i (.called :: .running :: l) }
    | _ => .ok s
  | .step i => stepThread mode s i
  | .destroy => .ok (if s.dtor = .idle then { s with dtor := .waiting } else s)
  | .proceed =>
    match s.dtor with
    | .waiting => .ok (if s.owner = .nobody then { s with owner := .destroyer, dtor := .holding } else s)
    | .holding => .ok { s with dtor := .gone }
    | _ => .ok s

/-- A schedule. (`sigslot.hpp:91-95`, `123-130`.) -/
def run (mode : Mode) : State → List Event → Outcome State
  | s, [] => .ok s
  | s, e :: es => step mode s e >>= fun s => run mode s es

end Ecl.SigSlots.Threads
