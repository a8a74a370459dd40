import Verif.Core.Outcome

/-!
# Model of copies of threads

`Thread` declares neither a copy constructor nor an assignment; the ones the compiler supplies copy member by member, the
handle of the system's thread included.  Simplifications: creating threads succeeds (failures are in
`Thread.lean`), so `thread_task` is null exactly if `has_started` is false; `cancel` is left out; copying a
handle that has no value yet is taken to be harmless.
-/
set_option autoImplicit false

namespace Ecl.Handles

/-- A `Thread` (`thread_pos.hpp:416-422`): `handle`: the system's thread, once `has_started`; `asked`:
`join_requested`. -/
structure Obj where
  handle : Option Nat
  asked : Bool
  deriving DecidableEq, Repr

/-- The objects, the threads that have ended, the threads whose handle was given back to the system (joined or detached), and
the number of threads created.  (The system behind `thread_pos.cpp:52,77,97`.) -/
structure World where
  obj : Nat → Option Obj
  ended : List Nat
  released : List Nat
  next : Nat

/-- Before the first constructor (`thread_pos.hpp:242-248`). -/
def World.empty : World := ⟨fun _ => none, [], [], 0⟩

/-- Calls: `make`: `Thread()`; `start` (`thread_pos.cpp:41-61`; a constructor that starts is `make` and `start`); `join`
(`:94-101`); `destroy` (`:63-79`); `copy p o`, `assign p o`: supplied by the compiler; `finish t`: the function of a thread
returns. -/
inductive Op where
  | make (o : Nat) | start (o : Nat) | copy (p o : Nat) | assign (p o : Nat) | join (o : Nat) | destroy (o : Nat)
  | finish (t : Nat)
  deriving DecidableEq, Repr

/-- Change one object. (Any member function.) -/
def upd (f : Nat → Option Obj) (o : Nat) (v : Option Obj) : Nat → Option Obj := fun x => if x = o then v else f x

/-- One call; `none`: it cannot return (`join` waits for the end of the thread) or the event cannot happen.  Joining or
detaching a thread that was joined or detached before is undefined (POSIX).  Starting a second time is refused
(`thread_pos.cpp:43-45`).  A call on an object that does not exist, or a constructor for one that does, is undefined. -/
def step (w : World) : Op → Option (Outcome World)
  | .make o => some (if (w.obj o).isSome then .ub else .ok { w with obj := upd w.obj o (some ⟨none, false⟩) })
  | .start o =>
    match w.obj o with
    | none => some .ub
    | some ⟨some _, _⟩ => some (.ok w)
    | some ⟨none, a⟩ => some (.ok { w with obj := upd w.obj o (some ⟨some w.next, a⟩), next := w.next + 1 })
  | .copy p o =>
    match w.obj o with
    | none => some .ub
    | some d => some (if (w.obj p).isSome then .ub else .ok { w with obj := upd w.obj p (some d) })
  | .assign p o =>
    match w.obj o with
    | none => some .ub
    | some d => some (if (w.obj p).isSome then .ok { w with obj := upd w.obj p (some d) } else .ub)
  | .join o =>
    match w.obj o with
    | none => some .ub
    | some ⟨none, _⟩ => some (.ok { w with obj := upd w.obj o (some ⟨none, true⟩) })
    | some ⟨some t, _⟩ =>
      if t ∈ w.released then some .ub
      else if t ∈ w.ended then
        some (.ok { w with obj := upd w.obj o (some ⟨some t, true⟩), released := t :: w.released })
      else none
  | .destroy o =>
    match w.obj o with
    | none => some .ub
    | some ⟨some t, false⟩ =>
      if t ∈ w.released then some .ub else some (.ok { w with obj := upd w.obj o none, released := t :: w.released })
    | some _ => some (.ok { w with obj := upd w.obj o none })
  | .finish t => if t < w.next ∧ t ∉ w.ended then some (.ok { w with ended := t :: w.ended }) else none

/-- A history (`thread_pos.cpp:33-101`). -/
def run (w : World) : List Op → Option (Outcome World)
  | [] => some (.ok w)
  | x :: xs =>
    match step w x with
    | some (.ok w) => run w xs
    | r => r

end Ecl.Handles
