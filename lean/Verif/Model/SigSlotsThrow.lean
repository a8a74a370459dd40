import Verif.Model.SigSlots

/-!
# Slots whose functions throw

The model of `Verif.Model.SigSlots` (one thread, one `Data` type) with functions of slots that may leave by an
exception, and with the members of an endpoint that `process` changes (`sigslot.hpp:193-194`): its mutex and the
number of running calls.  The exception passes `process`, which neither counts down nor unlocks (`123-130`,
`286-294`), and `emit` (`106-116`, `269-279`), whose loops end.  The destructor of the endpoint locks the mutex
(`91-95`, `254-258`): if it is locked by this very thread, a release build waits for ever, and a debug build throws
from a destructor, which ends the program (`mutex_pos.cpp:46`, `73`); `stuck` stands for both.
-/
set_option autoImplicit false

namespace Ecl.SigSlotsThrow
open Ecl.SigSlots

/-- What can be seen from outside: a function is called, a function returns.  (`sigslot.hpp:126`, `290`; the
function of a signal that is subscribed to a topic is its own `emit`.) -/
inductive Event where
  | call (x : Nat)
  | back (x : Nat)
  deriving DecidableEq, Repr

/-- The `processing_count` and the mutex of every endpoint (`sigslot.hpp:193-194`), and what has been seen. -/
structure Busy where
  count : Nat → Nat
  locked : Nat → Bool
  log : List Event

/-- Nothing has been called (`sigslot.hpp:61`, `69`, `80`). -/
def Busy.idle : Busy := ⟨fun _ => 0, fun _ => false, []⟩

/-- `mutex.trylock()`, which does nothing if the mutex is locked, and `++processing_count`
(`sigslot.hpp:124-126`, `288-290`).  The count does not overflow. -/
def enter (b : Busy) (x : Nat) : Busy :=
  ⟨upd b.count x (b.count x + 1), upd b.locked x true, b.log ++ [.call x]⟩

/-- After the function has returned (`sigslot.hpp:127-129`, `291-293`). -/
def leave (b : Busy) (x : Nat) : Busy :=
  ⟨upd b.count x (b.count x - 1), if b.count x - 1 = 0 then upd b.locked x false else b.locked,
    b.log ++ [.back x]⟩

/-- How a call ends. -/
inductive Ending where
  | returned (b : Busy)
  | threw (b : Busy)
  | ub

/-- A loop that an exception leaves (`sigslot.hpp:109-115`, `272-278`). -/
def loop {α : Type} (f : α → Busy → Ending) : List α → Busy → Ending
  | [], b => .returned b
  | x :: xs, b =>
    match f x b with
    | .returned b => loop f xs b
    | .threw b => .threw b
    | .ub => .ub

mutual
/-- `SigSlot::emit` (`sigslot.hpp:106-116`, `269-279`); `fuel` as in `SigSlots.emit`. `throws` tells of each call of
a function, given what has been seen before, whether it ends by an exception. -/
def emit (throws : List Event → Nat → Bool) (w : World) (fuel : Nat) (e : Nat) (b : Busy) : Ending :=
  match fuel with
  | 0 => .ub
  | fuel + 1 =>
    match w.eps e with
    | none => .ub
    | some E => loop (fun p b =>
        match deref w p with
        | .ok subs => loop (process throws w fuel) subs b
        | _ => .ub) E.publications b
termination_by (fuel, 0)

/-- `SigSlot::process` (`sigslot.hpp:123-130`, `286-294`). -/
def process (throws : List Event → Nat → Bool) (w : World) (fuel : Nat) (x : Nat) (b : Busy) : Ending :=
  match w.eps x with
  | none => .ub
  | some E =>
    let b := enter b x
    if E.relay then
      match emit throws w fuel x b with
      | .returned b => .returned (leave b x)
      | .threw b => .threw b
      | .ub => .ub
    else if throws b.log x then .threw b else .returned (leave b x)
termination_by (fuel, 1)
end

/-- The whole state (`sigslot.hpp:192-199`, `manager.hpp:148`). -/
structure State where
  w : World
  busy : Busy

/-- Before any call (`manager.hpp:148`). -/
def State.empty : State := ⟨World.empty, Busy.idle⟩

/-- Calls on handles: those of `SigSlots.Op` and the emission of a signal, with the behaviour of the functions that
it calls; the caller of `emit` catches the exception (`signal.hpp:135`, `240`). -/
inductive Op where
  | wire (op : SigSlots.Op)
  | emit (h : Nat) (throws : List Event → Nat → Bool)

/-- The next state; a call that never ends; or undefined behaviour. -/
inductive Result where
  | ok (s : State)
  | stuck
  | ub

/-- Which endpoint does destroying this handle delete? (`signal.hpp:89-94`, `slot.hpp:131-136`.) -/
def deletes (w : World) : SigSlots.Op → Option Nat
  | .destroy h =>
    match handle h w.handles with
    | none => none
    | some e =>
      match w.eps e with
      | none => none
      | some E => if E.handles = 1 then some e else none
  | _ => none

/-- One call.  The destructor of an endpoint disconnects it, then locks its mutex (`sigslot.hpp:91-95`, `254-258`). -/
def step (depth : Nat) (s : State) : Op → Result
  | .wire op =>
    match SigSlots.step s.w op with
    | .ok w =>
      match deletes s.w op with
      | some e => if s.busy.locked e then .stuck else .ok ⟨w, s.busy⟩
      | none => .ok ⟨w, s.busy⟩
    | _ => .ub
  | .emit h throws =>
    match handle h s.w.handles with
    | none => .ub
    | some e =>
      match emit throws s.w depth e s.busy with
      | .returned b => .ok ⟨s.w, b⟩
      | .threw b => .ok ⟨s.w, b⟩
      | .ub => .ub

/-- A history of calls. -/
def run (depth : Nat) : State → List Op → Result
  | s, [] => .ok s
  | s, op :: ops =>
    match step depth s op with
    | .ok s => run depth s ops
    | .stuck => .stuck
    | .ub => .ub

end Ecl.SigSlotsThrow
