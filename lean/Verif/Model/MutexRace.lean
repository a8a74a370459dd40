import Verif.Spec.HappensBefore

/-!
# What a `Mutex` reads and writes (`ecl_threads/src/lib/mutex_pos.cpp`)

The accesses to the plain counter `number_locks` and the operations of the mutex itself, which all succeed; owners, values
and errors are the subject of `Mutex.lean`.
-/
set_option autoImplicit false

namespace Ecl.MutexRace

open Ecl.Spec.Hb

/-- What a thread does: member functions of one mutex, `tryOk` and `tryBusy` being `trylock` with and without success, and
actions of its own. -/
inductive Call where
  | lock | tryOk | tryBusy | unlock | locks
  | use (a : Act)
  deriving DecidableEq, Repr

/-- The actions of a call; `n`: the counter, `m`: the mutex.  `lock` counts before it waits (`mutex_pos.cpp:69-75`), `trylock`
counts once it has the mutex (`:96-110`, `:77-94`), `unlock` counts before it lets go (`:112-118`), `locks` reads
(`mutex_pos.hpp:146`). -/
def call (n m : Nat) : Call → List Act
  | .lock => [.read n, .write n, .lock m]
  | .tryOk => [.lock m, .read n, .write n]
  | .tryBusy => []
  | .unlock => [.read n, .write n, .unlock m]
  | .locks => [.read n]
  | .use a => [a]

/-- The actions of a thread, call by call. -/
def calls (n m : Nat) (cs : List Call) : List Act := cs.flatMap (call n m)

end Ecl.MutexRace
