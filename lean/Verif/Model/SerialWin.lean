import Verif.Core.Outcome

/-!
# Model of `ecl::Serial` on Windows

`ecl_devices/src/lib/serial_w32.cpp`, `ecl_devices/include/ecl/devices/serial_w32.hpp`: one object, one port, the
thread that uses the object and the thread that the object starts (`event_proc`).  `open` is one step; `close`
begins, waits in `join`, and ends.  Not represented: writing, the settings of the port, the time a `read` waits
(a `read` that finds nothing has waited in vain), failures of `CreateEvent`, and other users of the port.
`WaitCommEvent` returns when bytes have come in since it returned last, or with an error.
-/
set_option autoImplicit false

namespace Ecl.SerialWin
variable {α : Type _}

/-- What the system answers in `open`: the port exists; `GetCommState` (`158`), `SetCommState` (`193`) and the
creation of the thread (`212`) succeed. -/
structure Env where
  found : Bool
  getState : Bool
  setState : Bool
  thread : Bool
  deriving DecidableEq, Repr

/-- The thread in `event_proc`: not there, in `WaitCommEvent`, returned.
(`serial_w32.cpp:241-256`.) -/
inductive Evt where
  | none | waiting | ended
  deriving DecidableEq, Repr

/-- `isOpen`, `isRun`, `fd`: members (`none` for an indeterminate `is_open`, and for `INVALID_HANDLE_VALUE`).  `joining`:
the user's thread is in the `join` of `close`, perhaps (`some`) in the call of `close` by `open`.  `handles`: open
handles of the port.  `queue`: bytes in the driver.  `signal`: bytes came in that `WaitCommEvent`
has not told. (`serial_w32.hpp:127`, `serial_w32.cpp:33-385`.) -/
structure State (α : Type _) where
  isOpen : Option Bool
  isRun : Bool
  fd : Option Nat
  evt : Evt
  joining : Option (Option Env)
  handles : List Nat
  next : Nat
  queue : List α
  signal : Bool
  deriving DecidableEq, Repr

/-- `Serial()` (`serial_w32.hpp:127`). -/
def State.new : State α := ⟨some false, false, none, .none, none, [], 0, [], false⟩

/-- The members as the other constructor leaves them to `open` (`serial_w32.cpp:33-36`). -/
def State.raw : State α := ⟨none, false, none, .none, none, [], 0, [], false⟩

/-- Calls; `joined`: the `join` returns and the call goes on; `wake`, `fail`: `WaitCommEvent` returns, with success or with
the error 995; `recv`: bytes come in. -/
inductive Op (α : Type _) where
  | openPort (e : Env)
  | close
  | joined
  | isOpen
  | read (n : Nat)
  | wake
  | fail
  | recv (bs : List α)
  deriving DecidableEq, Repr

/-- What a call gives: nothing, still in `join`, a truth value, bytes (`serial_w32.cpp:33-385`). -/
inductive Ans (α : Type _) where
  | done | waits | bool (b : Bool) | bytes (bs : List α)
  deriving DecidableEq, Repr

/-- `open` from line 59 on (`59-216`).  The port is opened without sharing.  `start` is called with the default
priority: in debug builds it throws, with a flag `f` made from `errno`, though the thread runs
(`Verif.Model.ThreadWin`, `C96_fails_start_throws`). -/
def doOpen (m : Mode) (f : Flag) (s : State α) (e : Env) : Res (State α) (Ans α) :=
  if !e.found then .throw { s with fd := none } .notFoundError
  else if s.handles ≠ [] then .throw { s with fd := none } .openError
  else
    let s := { s with fd := some s.next, handles := [s.next], next := s.next + 1, queue := [], signal := false }
    if !e.getState then .throw s .configurationError
    else if !e.setState then .throw s .configurationError
    else
      let s := { s with isRun := true, evt := if e.thread then .waiting else .none }
      match m with
      | .debug => .throw s (if e.thread then f else .unknownError)
      | .release => .ok { s with isOpen := some true } .done

/-- `close` from line 224 on (`224-234`). -/
def endClose (s : State α) : State α :=
  match s.fd with
  | none => { s with evt := .none, isOpen := some false, joining := none }
  | some h => { s with evt := .none, isOpen := some false, joining := none, fd := none, handles := s.handles.erase h }

/-- `event_proc` leaves its loop (`253-254`). -/
def endEvent (s : State α) : State α := { s with evt := .ended, fd := none, isOpen := some false }

/-- One step; `none`: not possible now.  `open`: `52-216`; `close`: `218-236`; `read`: `337-385`; `event_proc`: `241-255`. -/
def step (m : Mode) (f : Flag) (s : State α) : Op α → Option (Res (State α) (Ans α))
  | .openPort e =>
    if s.joining.isSome then none
    else match s.isOpen with
      | none => some .ub
      | some true => some (.ok { s with isRun := false, joining := some (some e) } .waits)
      | some false => some (doOpen m f s e)
  | .close =>
    if s.joining.isSome then none
    else match s.isOpen with
      | none => some .ub
      | some true => some (.ok { s with isRun := false, joining := some none } .waits)
      | some false => some (.ok s .done)
  | .joined =>
    match s.joining with
    | none => none
    | some next =>
      if s.evt = .waiting then none
      else match next with
        | none => some (.ok (endClose s) .done)
        | some e => some (doOpen m f (endClose s) e)
  | .isOpen =>
    if s.joining.isSome then none
    else match s.isOpen with
      | none => some .ub
      | some b => some (.ok s (.bool b))
  | .read n =>
    if s.joining.isSome then none
    else match s.fd with
      | none => some (.ok s (.bytes []))
      | some _ => some (.ok { s with queue := s.queue.drop n } (.bytes (s.queue.take n)))
  | .wake =>
    if s.evt = .waiting ∧ s.signal = true then
      if s.isRun then some (.ok { s with signal := false } .done)
      else some (.ok (endEvent { s with signal := false }) .done)
    else none
  | .fail => if s.evt = .waiting then some (.ok (endEvent s) .done) else none
  | .recv bs =>
    if s.handles = [] then some (.ok s .done)
    else some (.ok { s with queue := s.queue ++ bs, signal := s.signal || !bs.isEmpty } .done)

/-- A history and its answers; `none` when something in it is not possible, or undefined.
(`serial_w32.cpp:33-385`.) -/
def run (m : Mode) (f : Flag) : State α → List (Op α) → Option (State α × List (Obs (Ans α)))
  | s, [] => some (s, [])
  | s, op :: l =>
    match step m f s op with
    | none => none
    | some (.ok s' a) => (run m f s' l).map fun r => (r.1, .ok a :: r.2)
    | some (.throw s' e) => (run m f s' l).map fun r => (r.1, .error e :: r.2)
    | some .ub => none

end Ecl.SerialWin
