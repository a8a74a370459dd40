import Verif.Core.Outcome
import Verif.Core.CInt

/-!
# Model of `ecl::SocketClient` and `ecl::SocketServer` (posix): the calls on an established connection

`ecl_devices/src/lib/socket_client_pos.cpp`, `ecl_devices/src/lib/socket_server_pos.cpp`.

What the operating system answers is an input of each call.  The translation of `errno` to an error flag
(`detail/socket_exception_handler_pos.hpp`, `detail/socket_error_handler_pos.hpp`) is an arbitrary function `flagOf`.
-/
set_option autoImplicit false

namespace Ecl.Socket

/-- `errno` values the code distinguishes. (Tested at `socket_client_pos.cpp:163`, `223`.) -/
inductive Errno where
  | connReset | pipe | other (code : Nat)
  deriving DecidableEq, Repr

/-- The result of `recv`, `send` or `ioctl`: a non-negative number, or -1 and `errno`. -/
inductive Sys where
  | ret (k : Nat)
  | err (e : Errno)
  deriving DecidableEq, Repr

/-- `ConnectionProblem`, `ConnectionDisconnected`, `ConnectionHungUp`
(`ecl_devices/include/ecl/devices/socket_connection_status.hpp:30-36`). -/
def problem : Int := -1
/-- (`socket_connection_status.hpp:30-36`.) -/
def disconnected : Int := -2
/-- (`socket_connection_status.hpp:30-36`.) -/
def hungUp : Int := -3

/-- `is_open` and the error flag.  (`close()` clears `is_open` and closes a descriptor:
`socket_client_pos.cpp:59-62`, `socket_server_pos.hpp:110`; the server closes the listening socket, not
the one of the connection.) -/
structure Sock where
  isOpen : Bool
  err : Flag
  deriving DecidableEq, Repr

/-- `close()` (`socket_client_pos.cpp:131-137`). -/
def Sock.close (s : Sock) : Sock := { s with isOpen := false }

/-- Failure of a system call: thrown in debug mode, else the flag is set and `ConnectionProblem` returned
(e.g. `socket_server_pos.cpp:130-134`). -/
def fail (m : Mode) (flagOf : Errno → Flag) (s : Sock) (e : Errno) : Res Sock Int :=
  match m with
  | .debug => .throw s (flagOf e)
  | .release => .ok { s with err := flagOf e } problem

namespace Client

/-- `read(s,n)`: `socket_client_pos.cpp:139-174`; `recv`'s `ssize_t` is stored in an `int`.  (`errno` after
a call that did not fail is `other 0`.) -/
def read (m : Mode) (flagOf : Errno → Flag) (s : Sock) (r : Sys) : Res Sock Int :=
  if ¬ s.isOpen then .ok s disconnected
  else
    match r with
    | .ret k =>
      if s32 k = 0 then .ok s.close hungUp
      else if s32 k < 0 then fail m flagOf s (.other 0)
      else .ok { s with err := .noError } (s32 k)
    | .err .connReset => .ok s.close hungUp
    | .err e => fail m flagOf s e

/-- `peek(s,n)`: `socket_client_pos.cpp:176-188`. -/
def peek (m : Mode) (flagOf : Errno → Flag) (s : Sock) (r : Sys) : Res Sock Int :=
  if ¬ s.isOpen then .ok s disconnected
  else
    match r with
    | .ret k => if s32 k < 0 then fail m flagOf s (.other 0) else .ok { s with err := .noError } (s32 k)
    | .err e => fail m flagOf s e

/-- `remaining()`: `socket_client_pos.cpp:190-202`.  `FIONREAD` stores an `int` into the first half of an
uninitialised `unsigned long` whose memory holds `junk`. -/
def remaining (m : Mode) (flagOf : Errno → Flag) (s : Sock) (r : Sys) (junk : Nat) : Res Sock Int :=
  if ¬ s.isOpen then .ok s disconnected
  else
    match r with
    | .ret k => .ok { s with err := .noError } (junk / 4294967296 * 4294967296 + k : Nat)
    | .err e =>
      match m with
      | .debug => .throw s (flagOf e)
      | .release => .ok { s with err := .noError } junk

/-- `write(s,n)`: `socket_client_pos.cpp:213-236`. -/
def write (m : Mode) (flagOf : Errno → Flag) (s : Sock) (r : Sys) : Res Sock Int :=
  if ¬ s.isOpen then .ok s disconnected
  else
    match r with
    | .ret k => if s32 k < 0 then fail m flagOf s (.other 0) else .ok s (s32 k)
    | .err .pipe => .ok s.close hungUp
    | .err e => fail m flagOf s e

end Client

namespace Server

/-- `read(s,n)`: `socket_server_pos.cpp:125-143`. -/
def read (m : Mode) (flagOf : Errno → Flag) (s : Sock) (r : Sys) : Res Sock Int :=
  if ¬ s.isOpen then .ok s disconnected
  else
    match r with
    | .ret k =>
      if s32 k < 0 then fail m flagOf s (.other 0)
      else if s32 k = 0 then .ok s.close hungUp
      else .ok { s with err := .noError } (s32 k)
    | .err e => fail m flagOf s e

/-- `peek(s,n)`: `socket_server_pos.cpp:145-155`. -/
def peek (m : Mode) (flagOf : Errno → Flag) (s : Sock) (r : Sys) : Res Sock Int :=
  match r with
  | .ret k => if s32 k < 0 then fail m flagOf s (.other 0) else .ok { s with err := .noError } (s32 k)
  | .err e => fail m flagOf s e

/-- `remaining()`: `socket_server_pos.cpp:157-167`; `junk` as in `Client.remaining`. -/
def remaining (m : Mode) (flagOf : Errno → Flag) (s : Sock) (r : Sys) (junk : Nat) : Res Sock Int :=
  match r with
  | .ret k => .ok { s with err := .noError } (junk / 4294967296 * 4294967296 + k : Nat)
  | .err e => fail m flagOf s e

/-- `write(s,n)`: `socket_server_pos.cpp:174-195`. -/
def write (m : Mode) (flagOf : Errno → Flag) (s : Sock) (r : Sys) : Res Sock Int :=
  match r with
  | .ret k => if s32 k < 0 then fail m flagOf s (.other 0) else .ok { s with err := .noError } (s32 k)
  | .err .pipe => .ok s.close hungUp
  | .err e => fail m flagOf s e

end Server

/-- Calls, each with what the system answers; `n` is the number of bytes asked for.
(`socket_client_pos.cpp:139-236`, `socket_server_pos.cpp:125-195`.) -/
inductive Op where
  | read (n : Nat) (r : Sys)
  | peek (n : Nat) (r : Sys)
  | write (n : Nat) (r : Sys)
  deriving DecidableEq, Repr

/-- A call on a client (`socket_client_pos.cpp:139-236`). -/
def clientStep (m : Mode) (flagOf : Errno → Flag) (s : Sock) : Op → Res Sock Int
  | .read _ r => Client.read m flagOf s r
  | .peek _ r => Client.peek m flagOf s r
  | .write _ r => Client.write m flagOf s r

/-- A call on a server (`socket_server_pos.cpp:125-195`). -/
def serverStep (m : Mode) (flagOf : Errno → Flag) (s : Sock) : Op → Res Sock Int
  | .read _ r => Server.read m flagOf s r
  | .peek _ r => Server.peek m flagOf s r
  | .write _ r => Server.write m flagOf s r

end Ecl.Socket
