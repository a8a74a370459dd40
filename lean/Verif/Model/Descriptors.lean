import Verif.Core.Outcome

/-!
# Model of the descriptors that POSIX devices hold

`SocketClient`, `SocketServer`, `Serial` and `OFile` over the table of open descriptors of the process.  Only what opens and
closes descriptors is modelled; the data that goes through them is modelled elsewhere.  `ecl_throw` throws (exceptions
are not disabled).
-/
set_option autoImplicit false

namespace Ecl.Desc

/-- The open descriptors of the process: those that the system gave to the device, and those of
the rest of the program. This models the operating system behind the calls at
`socket_client_pos.cpp:78`, `socket_server_pos.cpp:60`, `serial_pos.cpp:114`, `ofile_pos.cpp:69`. -/
structure Os where
  mine : List Nat
  others : List Nat
  deriving DecidableEq, Repr

namespace Os

/-- All numbers in use (operating system, see `Os`; no lines of /repo). -/
def used (o : Os) : List Nat := o.mine ++ o.others

/-- The system gives the device a descriptor; `alloc` chooses it. (`::socket`, `::open`,
`::accept` at the lines cited at `Os` and `socket_server_pos.cpp:97-119`.) -/
def get (alloc : List Nat → Nat) (o : Os) : Os := { o with mine := alloc o.used :: o.mine }

/-- `::close(n)`: closes the descriptor with that number, whoever uses it.
(`socket_client_pos.cpp:61`, `socket_server_pos.hpp:110`, `serial_pos.cpp:284`,
`ofile_pos.cpp:54,102`.) -/
def close (n : Int) (o : Os) : Os :=
  ⟨o.mine.filter fun k => (k : Int) ≠ n, o.others.filter fun k => (k : Int) ≠ n⟩

end Os

/-- The lowest free number: the rule of POSIX. (Operating system; no lines of /repo.) -/
def lowest (used : List Nat) : Nat := ((List.range (used.length + 1)).find? fun n => !used.contains n).getD 0

/-! ## Socket clients -/

/-- `SocketClient` (`socket_client_pos.hpp:194-198`); `fd = none`: indeterminate. -/
structure Client where
  os : Os
  fd : Option Int
  isOpen : Bool
  deriving DecidableEq, Repr

/-- How connecting goes. (The results of `socket`, `gethostbyname`, `connect`:
`socket_client_pos.cpp:78-128`.) -/
inductive Conn where
  | noSocket (e : Flag) | noHost (e : Flag) | refused (e : Flag) | ok
  deriving DecidableEq, Repr

/-- Calls; `gone`: a `read` or `write` that finds that the other side hung up; `other`, `otherClose`: the rest of the
program opens or closes a descriptor of its own. (`socket_client_pos.cpp:59-62`, `64-129`,
`157-165`.) -/
inductive COp where
  | open (r : Conn) | close | gone | other | otherClose (n : Nat)
  deriving DecidableEq, Repr

/-- `SocketClient()` (`socket_client_pos.hpp:69`). -/
def Client.new (others : List Nat) : Client := ⟨⟨[], others⟩, none, false⟩

/-- `socket_client_pos.cpp:59-62`; also the destructor (`socket_client_pos.hpp:82`). -/
def Client.close (s : Client) : Res Client Bool :=
  match s.fd with
  | none => .ub
  | some n => .ok { s with isOpen := false, os := s.os.close n } true

/-- `socket_client_pos.cpp:78-128`, the device being closed. -/
def Client.connect (alloc : List Nat → Nat) (s : Client) : Conn → Res Client Bool
  | .noSocket e => .throw { s with fd := some (-1) } e
  | .noHost e | .refused e =>
    .throw { os := (s.os.get alloc).close (alloc s.os.used), fd := some (alloc s.os.used), isOpen := false } e
  | .ok => .ok ⟨s.os.get alloc, some (alloc s.os.used), true⟩ true

/-- `open` (`socket_client_pos.cpp:64-129`), `read` (`:157-165`) and the others. -/
def Client.step (alloc : List Nat → Nat) (s : Client) : COp → Res Client Bool
  | .open r => if s.isOpen then s.close.bind fun s _ => s.connect alloc r else s.connect alloc r
  | .close => s.close
  | .gone => if s.isOpen then s.close else .ok s false
  | .other => .ok { s with os := { s.os with others := alloc s.os.used :: s.os.others } } true
  | .otherClose n => .ok { s with os := { s.os with others := s.os.others.filter (· ≠ n) } } true

/-! ## Socket servers -/

/-- `SocketServer` (`socket_server_pos.hpp:216-220`); the descriptor of the accepted client is only among `os.mine`. -/
structure Server where
  os : Os
  fd : Option Int
  isOpen : Bool
  deriving DecidableEq, Repr

/-- How binding goes: the results of `socket` and `bind` (`socket_server_pos.cpp:60-94`). -/
inductive Bind where
  | noSocket (e : Flag) | noBind (e : Flag) | ok
  deriving DecidableEq, Repr

/-- `listen r`: `accept` fails with `some e`. (`socket_server_pos.cpp:48-119`,
`socket_server_pos.hpp:110`.) -/
inductive VOp where
  | open (r : Bind) | listen (r : Option Flag) | close | other
  deriving DecidableEq, Repr

/-- `SocketServer()` (`socket_server_pos.hpp:65`). -/
def Server.new (others : List Nat) : Server := ⟨⟨[], others⟩, none, false⟩

/-- `socket_server_pos.hpp:110`; also the destructor (`:77`). -/
def Server.close (s : Server) : Res Server Bool :=
  match s.fd with
  | none => .ub
  | some n => .ok { s with isOpen := false, os := s.os.close n } true

/-- `socket_server_pos.cpp:60-94`, the device being closed. -/
def Server.bind (alloc : List Nat → Nat) (s : Server) : Bind → Res Server Bool
  | .noSocket e => .throw { s with fd := some (-1) } e
  | .noBind e => .throw ⟨s.os.get alloc, some (alloc s.os.used), true⟩ e
  | .ok => .ok ⟨s.os.get alloc, some (alloc s.os.used), true⟩ true

/-- `open` (`socket_server_pos.cpp:48-95`), `listen` (`:97-119`).  Listening on a device that was never opened uses an
indeterminate descriptor. -/
def Server.step (alloc : List Nat → Nat) (s : Server) : VOp → Res Server Bool
  | .open r => if s.isOpen then s.close.bind fun s _ => s.bind alloc r else s.bind alloc r
  | .listen r => match s.fd, r with
    | none, _ => .ub
    | some _, some e => .throw s e
    | some _, none => .ok { s with os := s.os.get alloc } true
  | .close => s.close
  | .other => .ok { s with os := { s.os with others := alloc s.os.used :: s.os.others } } true

/-! ## Serial ports -/

/-- `Serial` (`serial_pos.hpp:386-392`); `isOpen = none`: indeterminate; `timed`: `read_timeout_ms` has a value.  The
descriptor is looked at only when the port is open (`block` and `unblock` of a closed port are not modelled). -/
structure Port where
  os : Os
  fd : Int
  isOpen : Option Bool
  timed : Bool
  deriving DecidableEq, Repr

/-- How opening a port goes: the checks of `serial_pos.cpp:90-276` in their order. -/
inductive SOpen where
  | badStop | noPort (e : Flag) | badBaud | locked | noSpeed | ok
  deriving DecidableEq, Repr

/-- `query present`: `open()`, the file of the port being there or not. (`serial_pos.cpp:90-297`.) -/
inductive SOp where
  | open (present : Bool) (r : SOpen) | close | query (present : Bool) | other
  deriving DecidableEq, Repr

/-- `Serial()` (`serial_pos.hpp:144`).  Variables with static storage duration (`stat`) are zero before their constructor
runs. -/
def Port.new (stat : Bool) (others : List Nat) : Port := ⟨⟨[], others⟩, -1, some false, stat⟩

/-- The members before the body of `Serial(port_name, ...)` runs (`serial_pos.cpp:69-72`). -/
def Port.raw (stat : Bool) (others : List Nat) : Port := ⟨⟨[], others⟩, -1, if stat then some false else none, true⟩

/-- `serial_pos.cpp:279-287`; also the destructor (`:81-84`). -/
def Port.close (s : Port) : Res Port Bool :=
  match s.isOpen with
  | none => .ub
  | some true => .ok { s with os := s.os.close s.fd, isOpen := some false } true
  | some false => .ok s true

/-- `open()` (`serial_pos.cpp:289-297`). -/
def Port.query (s : Port) (present : Bool) : Res Port Bool :=
  match s.isOpen with
  | none => .ub
  | some true => if present then .ok s true else s.close.bind fun s _ => .ok s false
  | some false => .ok s false

/-- `serial_pos.cpp:114-276`: the checks after `::open` throw without closing; then `read_timeout_ms` is looked at. -/
def Port.setUp (alloc : List Nat → Nat) (s : Port) : SOpen → Res Port Bool
  | .noPort e => .throw { s with fd := -1 } e
  | .badBaud | .noSpeed => .throw { s with os := s.os.get alloc, fd := alloc s.os.used } .configurationError
  | .locked => .throw { s with os := s.os.get alloc, fd := alloc s.os.used } .openError
  | _ => if s.timed then .ok { s with os := s.os.get alloc, fd := alloc s.os.used, isOpen := some true } true else .ub

/-- `open` (`serial_pos.cpp:90-277`). -/
def Port.open (alloc : List Nat → Nat) (s : Port) (present : Bool) (r : SOpen) : Res Port Bool :=
  if r = .badStop then .throw s .configurationError
  else (s.query present).bind fun s isOpen =>
    if isOpen then s.close.bind fun s _ => s.setUp alloc r else s.setUp alloc r

/-- One call (`serial_pos.cpp:90-297`); `other`: the rest of the program opens a descriptor. -/
def Port.step (alloc : List Nat → Nat) (s : Port) : SOp → Res Port Bool
  | .open present r => s.open alloc present r
  | .close => s.close
  | .query present => s.query present
  | .other => .ok { s with os := { s.os with others := alloc s.os.used :: s.os.others } } true

/-! ## Files -/

/-- The member `file`: null, a stream over a descriptor, or a pointer to a stream that was closed.
(`ofile_pos.hpp:297-300`.) -/
inductive Stream where
  | null | over (n : Nat) | stale
  deriving DecidableEq, Repr

/-- `OFile` (`ofile_pos.hpp:297-300`). -/
structure File where
  os : Os
  file : Stream
  deriving DecidableEq, Repr

/-- How opening a file goes: the results of `::open` and `fdopen` (`ofile_pos.cpp:65-97`). -/
inductive FOpen where
  | noFile (e : Flag) | noStream (e : Flag) | ok
  deriving DecidableEq, Repr

/-- `close r`: `fclose` fails with `some e`. (`ofile_pos.cpp:65-111`.) -/
inductive FOp where
  | open (r : FOpen) | close (r : Option Flag) | other
  deriving DecidableEq, Repr

/-- `OFile()` (`ofile_pos.cpp:35-38`). -/
def File.new (others : List Nat) : File := ⟨⟨[], others⟩, .null⟩

/-- `open()` (`ofile_pos.hpp:137`). -/
def File.isOpen (s : File) : Bool := s.file ≠ .null

/-- `close` (`ofile_pos.cpp:99-111`): `fclose` gives up the stream and its descriptor even if it fails. -/
def File.close (s : File) (r : Option Flag) : Res File Bool :=
  match s.file with
  | .null => .ok s true
  | .stale => .ub
  | .over n => match r with
    | none => .ok ⟨s.os.close n, .null⟩ true
    | some e => .throw ⟨s.os.close n, .stale⟩ e

/-- The destructor (`ofile_pos.cpp:51-60`). -/
def File.destroy (s : File) : Res File Bool :=
  match s.file with
  | .null => .ok s true
  | .stale => .ub
  | .over n => .ok ⟨s.os.close n, .null⟩ true

/-- `open` (`ofile_pos.cpp:65-97`): both modes alike. -/
def File.step (alloc : List Nat → Nat) (s : File) : FOp → Res File Bool
  | .open (.noFile e) => .throw s e
  | .open (.noStream e) => .throw ⟨s.os.get alloc, .null⟩ e
  | .open .ok => .ok ⟨s.os.get alloc, .over (alloc s.os.used)⟩ true
  | .close r => s.close r
  | .other => .ok { s with os := { s.os with others := alloc s.os.used :: s.os.others } } true

end Ecl.Desc
