import Mathlib.Logic.Function.Basic

/-!
# The counter of a `Mutex` when threads interleave (`ecl_threads/src/lib/mutex_pos.cpp`)

`++number_locks` and `--number_locks` are a read and a write each.  Simplification: each of the two is taken as one step and
seen by all threads at once, which is more than C++ promises (`MutexRace.lean`); the calls of pthread succeed.
-/
set_option autoImplicit false

namespace Ecl.MutexCount

/-- Where a thread is.  Outside of calls: `idle` and `held` (it has the mutex).  In `lock` (`mutex_pos.cpp:69-75`): `counting`
with the value read, then `waiting`.  In `trylock` (`:77-94`, `:96-110`): `tryGot` with the mutex, then `tryRead`.  In `unlock`
(`:112-118`): `leaving` with the value read, then `letting`. -/
inductive Pc where
  | idle | counting (v : BitVec 32) | waiting | held | tryGot | tryRead (v : BitVec 32) | leaving (v : BitVec 32) | letting
  deriving DecidableEq

/-- `number_locks`, an `unsigned int` (`mutex_pos.hpp`), who has the mutex of the system, and where the threads are. -/
structure State (N : Nat) where
  n : BitVec 32
  owner : Option (Fin N)
  pc : Fin N → Pc

/-- `Mutex()` (`mutex_pos.cpp:33-60`) that is not locked at once. -/
def init (N : Nat) : State N := ⟨0, none, fun _ => .idle⟩

/-- Parts of calls. -/
inductive Part where
  | lockRead | lockWrite | lockGet | tryGet | tryBusy | tryRead | tryWrite | unlockRead | unlockWrite | unlockGo
  deriving DecidableEq

variable {N : Nat}

/-- What a thread does next, if it can: `lock` (`mutex_pos.cpp:69-75`) reads, writes and then waits until nobody has the mutex;
`trylock` (`:77-94`, `:96-110`) takes the mutex or returns false, then reads and writes; `unlock` (`:112-118`), called by a
thread that has the mutex, reads, writes and lets go. -/
def step (s : State N) (t : Fin N) : Part → Option (State N)
  | .lockRead => if s.pc t = .idle then some { s with pc := Function.update s.pc t (.counting s.n) } else none
  | .lockWrite => match s.pc t with
    | .counting v => some { s with n := v + 1, pc := Function.update s.pc t .waiting }
    | _ => none
  | .lockGet => if s.pc t = .waiting ∧ s.owner = none then
      some { s with owner := some t, pc := Function.update s.pc t .held } else none
  | .tryGet => if s.pc t = .idle ∧ s.owner = none then
      some { s with owner := some t, pc := Function.update s.pc t .tryGot } else none
  | .tryBusy => if s.pc t = .idle ∧ s.owner ≠ none then some s else none
  | .tryRead => if s.pc t = .tryGot then some { s with pc := Function.update s.pc t (.tryRead s.n) } else none
  | .tryWrite => match s.pc t with
    | .tryRead v => some { s with n := v + 1, pc := Function.update s.pc t .held }
    | _ => none
  | .unlockRead => if s.pc t = .held then some { s with pc := Function.update s.pc t (.leaving s.n) } else none
  | .unlockWrite => match s.pc t with
    | .leaving v => some { s with n := v - 1, pc := Function.update s.pc t .letting }
    | _ => none
  | .unlockGo => if s.pc t = .letting then some { s with owner := none, pc := Function.update s.pc t .idle } else none

/-- An execution. -/
def run (s : State N) : List (Fin N × Part) → Option (State N)
  | [] => some s
  | (t, p) :: r => (step s t p).bind fun s' => run s' r

/-- `locks()` (`mutex_pos.hpp:146`). -/
def locks (s : State N) : Nat := s.n.toNat

end Ecl.MutexCount
