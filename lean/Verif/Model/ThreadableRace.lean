import Verif.Spec.HappensBefore

/-!
# What a `Threadable` reads and writes (`ecl_threads/include/ecl/threads/threadable.hpp`)

The accesses to the plain member `isRunning` (a `Parameter<bool>`, `threadable.hpp:90`), the memory of the task and the
making of the thread; the values are the subject of `Thread.lean`.  Creating the thread succeeds.  What `runnable` does
is any list of actions.  Not included: the accesses to the task itself, which are ordered by the making of the thread.
-/
set_option autoImplicit false

namespace Ecl.ThreadableRace

open Ecl.Spec.Hb

/-- `start` while the flag is off (`threadable.hpp:79-84`): the flag is read and set, the task is allocated
(`thread_pos.hpp:464`) and the thread made (`:465`); the destructor of the thread object detaches it
(`thread_pos.cpp:76-78`), which orders nothing. -/
def start (flag task w : Nat) : List Act := [.read flag, .write flag, .alloc task, .spawn w]

/-- The thread: `runnable`, the flag is cleared (`threadable.hpp:98-101`), the task deleted (`thread_pos.hpp:94-101`). -/
def thread (flag task : Nat) (runnable : List Act) : List Act := runnable ++ [.write flag, .free task]

end Ecl.ThreadableRace
