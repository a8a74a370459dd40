import Verif.Spec.HappensBefore

/-!
# What waiting for a thread orders (`ecl_threads/src/lib/thread_pos.cpp`)

The calls of the owner of a `Thread` and the actions of the thread itself.  The end of a thread and `pthread_join`, which
orders everything in the thread before what follows the call, are written as the unlocking and locking of a mutex `e` that
nothing else uses.  Making the thread succeeds.  What is undefined about cancelling and joining (the task deleted
twice, handles that are not valid) is the subject of `Thread.lean`.
-/
set_option autoImplicit false

namespace Ecl.JoinRace

open Ecl.Spec.Hb

/-- What the owner does: member functions of the thread object, and actions of its own. -/
inductive Call where
  | start | join | cancel
  | use (a : Act)
  deriving DecidableEq, Repr

/-- The actions of the owner; `started`: `has_started`, `task`: `thread_task` is not null.
`start` (`thread_pos.cpp:41-61`, `thread_pos.hpp:454-475`): allocates the task and makes the thread, unless it was started
before.  `join` (`thread_pos.cpp:94-101`): waits only if there is a task.  `cancel` (`:80-92`): deletes the task. -/
def owner (task w e : Nat) : Bool → Bool → List Call → List Act
  | _, _, [] => []
  | s, k, .use a :: r => a :: owner task w e s k r
  | s, k, .start :: r => if s then owner task w e s k r else .alloc task :: .spawn w :: owner task w e true true r
  | s, k, .join :: r => if k then .lock e :: owner task w e s k r else owner task w e s k r
  | s, k, .cancel :: r => if k then .free task :: owner task w e s false r else owner task w e s k r

/-- The thread: the function, the task deleted (`thread_pos.hpp:94-101`), the end. -/
def thread (task e : Nat) (function : List Act) : List Act := function ++ [.free task, .unlock e]

end Ecl.JoinRace
