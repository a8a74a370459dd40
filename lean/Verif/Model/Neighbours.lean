import Verif.Core.Outcome

/-!
# Model of the devices of one program side by side

Any number of `SocketClient`s and `Serial` ports over the one table of descriptors that the process has.  A device
keeps the number of its descriptor; the table says what is behind each number.  Simplifications: opening succeeds, or is
refused by the other side (other failures are in `Descriptors.lean`); calls do not overlap; what is written is accepted whole; members that the constructors
leave indeterminate are only looked at where a client closes a descriptor it never had; copying one is taken to be harmless.
-/
set_option autoImplicit false

namespace Ecl.Near

/-- `SocketClient` (`socket_client_pos.hpp:64-199`), `Serial` (`serial_pos.hpp:130-393`). -/
inductive Cls where
  | client | serial
  deriving DecidableEq, Repr

/-- The members `socket_fd` and `is_open` (`socket_client_pos.hpp:196-197`), `file_descriptor` and `is_open`
(`serial_pos.hpp:387-392`); `fd = none`: no value yet. -/
structure Dev where
  cls : Cls
  fd : Option Nat
  isOpen : Bool
  deriving DecidableEq, Repr

/-- The devices that exist, the open descriptors with what is behind them (a connection or a line, by the number the
program knows it under), and what has arrived where.  (Operating system behind `socket_client_pos.cpp:61,78,220`,
`serial_pos.cpp:114,284`, `serial_pos.hpp:410,431`.) -/
structure Proc where
  obj : Nat → Option Dev
  table : List (Nat × Nat)
  got : List (Nat × List Nat)

/-- Before the first constructor (`socket_client_pos.hpp:69`, `serial_pos.hpp:144`). -/
def Proc.empty : Proc := ⟨fun _ => none, [], []⟩

/-- Calls: `make`: the constructors without arguments; `open o l`: `open`, to `l`; `refuse o`: `open`, but the host is unknown
or refuses the connection, or the port does not exist; `copy p o`, `assign p o`: what the compiler
supplies; `write`; `close`; `destroy`.  (`socket_client_pos.hpp:69-124`, `serial_pos.hpp:144-258`.) -/
inductive Op where
  | make (o : Nat) (c : Cls) | open (o l : Nat) | refuse (o : Nat) | copy (p o : Nat) | assign (p o : Nat)
  | write (o : Nat) (bs : List Nat) | close (o : Nat) | destroy (o : Nat)
  deriving DecidableEq, Repr

/-- What a call says: `wrote n`: `n` bytes; `shut`: the device is not open (`socket_client_pos.cpp:215`,
`serial_pos.hpp:404-409`); `failed`: the system refused (`socket_client_pos.cpp:228-232`, `serial_pos.hpp:411-416`, `socket_client_pos.cpp:103,124`, `serial_pos.cpp:120`;
an exception in debug builds). -/
inductive Reply where
  | done | wrote (n : Nat) | shut | failed
  deriving DecidableEq, Repr

/-- Change one device. (Any member function.) -/
def upd (f : Nat → Option Dev) (o : Nat) (v : Option Dev) : Nat → Option Dev := fun x => if x = o then v else f x

/-- `::close(n)` (`socket_client_pos.cpp:61`, `serial_pos.cpp:284`): whoever the number belongs to. -/
def release (t : List (Nat × Nat)) (n : Nat) : List (Nat × Nat) := t.filter fun e => e.1 ≠ n

/-- `close` of a device: a client closes whatever number it has (`socket_client_pos.cpp:59-62`), a port only while it is
open (`serial_pos.cpp:279-287`). -/
def shutDown (t : List (Nat × Nat)) (d : Dev) : Outcome (List (Nat × Nat) × Dev) :=
  match d.cls, d.isOpen, d.fd with
  | .serial, false, _ => .ok (t, d)
  | _, _, none => .ub
  | _, _, some n => .ok (release t n, { d with isOpen := false })

/-- One call; a call on a device that does not exist, or a constructor for one that does, is undefined.
`open`: `socket_client_pos.cpp:64-129`, `serial_pos.cpp:90-277`; `refuse`: a client gets a socket, closes it and keeps its
number (`socket_client_pos.cpp:78,98-104,119-125`), a port gets nothing (`serial_pos.cpp:114-121`; its number -1 is never
looked at and is not kept here); `write`: `socket_client_pos.cpp:213-236`,
`serial_pos.hpp:401-440`; destructors: `socket_client_pos.hpp:82`, `serial_pos.cpp:81-84`. -/
def step (alloc : List Nat → Nat) (w : Proc) : Op → Outcome (Proc × Reply)
  | .make o c => if (w.obj o).isSome then .ub else .ok ({ w with obj := upd w.obj o (some ⟨c, none, false⟩) }, .done)
  | .open o l =>
    match w.obj o with
    | none => .ub
    | some d => (if d.isOpen then shutDown w.table d else .ok (w.table, d)).bind fun r =>
        .ok (⟨upd w.obj o (some ⟨d.cls, some (alloc (r.1.map Prod.fst)), true⟩),
          (alloc (r.1.map Prod.fst), l) :: r.1, w.got⟩, .done)
  | .refuse o =>
    match w.obj o with
    | none => .ub
    | some d => (if d.isOpen then shutDown w.table d else .ok (w.table, d)).bind fun r =>
        match d.cls with
        | .client => .ok (⟨upd w.obj o (some ⟨.client, some (alloc (r.1.map Prod.fst)), false⟩),
            release ((alloc (r.1.map Prod.fst), 0) :: r.1) (alloc (r.1.map Prod.fst)), w.got⟩, .failed)
        | .serial => .ok (⟨upd w.obj o (some ⟨.serial, none, false⟩), r.1, w.got⟩, .failed)
  | .copy p o =>
    match w.obj o with
    | none => .ub
    | some d => if (w.obj p).isSome then .ub else .ok ({ w with obj := upd w.obj p (some d) }, .done)
  | .assign p o =>
    match w.obj o, w.obj p with
    | some d, some e => if d.cls = e.cls then .ok ({ w with obj := upd w.obj p (some d) }, .done) else .ub
    | _, _ => .ub
  | .write o bs =>
    match w.obj o with
    | none => .ub
    | some d =>
      if d.isOpen then
        match d.fd with
        | none => .ub
        | some n => match w.table.lookup n with
          | none => .ok (w, .failed)
          | some l => .ok ({ w with got := w.got ++ [(l, bs)] }, .wrote bs.length)
      else .ok (w, .shut)
  | .close o =>
    match w.obj o with
    | none => .ub
    | some d => (shutDown w.table d).bind fun r => .ok (⟨upd w.obj o (some r.2), r.1, w.got⟩, .done)
  | .destroy o =>
    match w.obj o with
    | none => .ub
    | some d => (shutDown w.table d).bind fun r => .ok (⟨upd w.obj o none, r.1, w.got⟩, .done)

/-- A history of calls (`socket_client_pos.cpp:46-236`, `serial_pos.cpp:69-297`). -/
def run (alloc : List Nat → Nat) (w : Proc) : List Op → Outcome Proc
  | [] => .ok w
  | x :: xs => (step alloc w x).bind fun r => run alloc r.1 xs

end Ecl.Near
