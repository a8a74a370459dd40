import Verif.Core.Outcome

/-!
# Model of a device that one thread reads and another one writes

The members of a connection or serial port and the accesses of `read` and `write` to them, one at a time, so that the two threads
interleave in any way (sequentially consistent).  Members that only one side uses, or that nothing changes once the device is open,
are left out: the time limit and the snooze of `Serial::read` (`ecl_devices/include/ecl/devices/serial_pos.hpp:453-469`), the
buffer of the caller.  The socket of the server has a client already (`listen` was called).
-/
set_option autoImplicit false

namespace Ecl.Duplex

/-- `SocketClient`, `SocketServer`, `Serial` (`ecl_devices/src/lib/socket_client_pos.cpp`, `socket_server_pos.cpp`,
`ecl_devices/include/ecl/devices/serial_pos.hpp`). -/
inductive Cls where
  | client | server | serial
  deriving DecidableEq, Repr

/-- The thread that calls `read` and the one that calls `write`
(`ecl_core_apps/src/utils/serial.cpp:78-103`, `121-151`, `socket_client.cpp:214-221`). -/
inductive Side where
  | reader | writer
  deriving DecidableEq, Repr

/-- What the system call answers: bytes were moved (for a serial port also: none came in time); the other side has hung up
(`recv` gives 0, for clients also `ECONNRESET`; `send` gives `EPIPE`); another failure, with its error.
(`socket_client_pos.cpp:152-171`, `220-234`.) -/
inductive Answer where
  | done | hangUp | failed (f : Flag)
  deriving DecidableEq, Repr

/-- What a call returns (`ecl_devices/include/ecl/devices/socket_connection_status.hpp:32-36`), or that it throws. -/
inductive Result where
  | moved | disconnected | hungUp | problem | thrown
  deriving DecidableEq, Repr

/-- The members `is_open`, `socket_fd` or `client_socket_fd` or `file_descriptor`, `error_handler`
(`serial_pos.hpp:386-393`, `socket_client_pos.hpp:193-199`). -/
inductive Mem where
  | isOpen | fd | err
  deriving DecidableEq, Repr

/-- Where a thread is: between calls; before it looks at `is_open`; before the system call, for which it loads the descriptor; before
it sets `error_handler` (and returns); in `close()` before `is_open = false`; there before `::close`.
(`socket_client_pos.cpp:59-62`, `139-174`.) -/
inductive Pc where
  | idle | check | call | note (f : Flag) (r : Result) | mark | drop
  deriving DecidableEq, Repr

/-- The members, the number of `::close` calls, and for both threads where they are and what their calls have returned, the last
one first. (`serial_pos.hpp:386-393`.) -/
structure World where
  isOpen : Bool
  err : Flag
  closes : Nat
  pc : Side → Pc
  log : Side → List Result

/-- An open device and two threads. (After `open`, `socket_client_pos.cpp:126-128`.) -/
def World.start : World := ⟨true, .noError, 0, fun _ => .idle, fun _ => []⟩

/-- A thread is at `p` now. (Any step of `socket_client_pos.cpp:139-236`.) -/
def World.at (w : World) (s : Side) (p : Pc) : World := { w with pc := fun x => if x = s then p else w.pc x }

/-- A call of a thread returns. (Any `return` of `socket_client_pos.cpp:139-236`.) -/
def World.ret (w : World) (s : Side) (r : Result) : World :=
  { w with pc := fun x => if x = s then .idle else w.pc x, log := fun x => if x = s then r :: w.log x else w.log x }

/-- The first thing a call does: `SocketServer::write` does not look at `is_open` (`socket_server_pos.cpp:174-176`), the others do
(`socket_client_pos.cpp:141`, `215`, `socket_server_pos.cpp:127`, `serial_pos.hpp:404`, `425`, `446`, `485`). -/
def entry : Cls → Side → Pc
  | .server, .writer => .call
  | _, _ => .check

/-- After a failure: debug builds throw (`ecl_debug_throw`), release builds set the error and report
(`socket_client_pos.cpp:167-169`, `229-231`, `socket_server_pos.cpp:131-133`, `187-189`, `serial_pos.hpp:413-415`, `472-474`). -/
def fail (m : Mode) (w : World) (s : Side) (f : Flag) : World :=
  match m with
  | .debug => w.ret s .thrown
  | .release => w.at s (.note f .problem)

/-- After the system call.  `SocketClient::write` alone does not set the error after success (`socket_client_pos.cpp:222-235`).
A serial port knows no hang-up; it counts as a failure there. (`socket_client_pos.cpp:157-173`, `socket_server_pos.cpp:130-142`,
`180-194`, `serial_pos.hpp:411-418`, `470-477`.) -/
def answered (c : Cls) (m : Mode) (w : World) (s : Side) : Answer → World
  | .done => if c = .client ∧ s = .writer then w.ret s .moved else w.at s (.note .noError .moved)
  | .hangUp => if c = .serial then fail m w s .unknownError else w.at s .mark
  | .failed f => fail m w s f

/-- One step of a thread; the answer matters only for the system call. (`socket_client_pos.cpp:59-62`, `135-236`,
`socket_server_pos.cpp:125-195`, `socket_server_pos.hpp:110`, `serial_pos.hpp:400-517`.) -/
def step (c : Cls) (m : Mode) (w : World) (s : Side) (a : Answer) : World :=
  match w.pc s with
  | .idle => w.at s (entry c s)
  | .check =>
    if w.isOpen then w.at s .call
    else if c = .serial then fail m w s .openError
    else w.ret s .disconnected
  | .call => answered c m w s a
  | .note f r => { w with err := f }.ret s r
  | .mark => { w with isOpen := false }.at s .drop
  | .drop => { w with closes := w.closes + 1 }.ret s .hungUp

/-- A schedule: which thread makes a step, and what the system would answer. (Any use of `socket_client_pos.cpp:135-236`.) -/
def run (c : Cls) (m : Mode) (w : World) : List (Side × Answer) → World
  | [] => w
  | (s, a) :: xs => run c m (step c m w s a) xs

/-- The member that the next step of a thread uses, and whether it stores. (As `step`.) -/
def Pc.access : Pc → Option (Mem × Bool)
  | .idle => none
  | .check => some (.isOpen, false)
  | .call => some (.fd, false)
  | .note _ _ => some (.err, true)
  | .mark => some (.isOpen, true)
  | .drop => some (.fd, false)

end Ecl.Duplex
