import Verif.Model.Errno

/-!
# Opening devices in builds with and without exceptions

`ecl_throw(exception)` is `throw exception;` or, with `ECL_DISABLE_EXCEPTIONS`, nothing
(`ecl_exceptions/include/ecl/exceptions/macros.hpp:45-75`); `ecl_try { A } ecl_catch(e) { B }` is `try`/`catch` or
`if(true) A else B`.  Only what decides the result of opening, `open()` and `error()` is modelled; descriptors are in
`Model/Descriptors.lean`.
-/
set_option autoImplicit false

namespace Ecl.Opening
open Ecl.Errno

/-- Whether exceptions are thrown. (`ecl_exceptions/include/ecl/exceptions/macros.hpp:45-75`.) -/
inductive Build where
  | throwing | silent
  deriving DecidableEq, Repr

/-- How a call ends. (`macros.hpp:45-75` and the `open` functions cited below.) -/
inductive Called where
  | threw (e : Flag)
  | gave (v : Bool)
  deriving DecidableEq, Repr

/-- `ecl_throw(e); rest` where the rest ends in `return false`: `s` is the state before, `t` after
the rest. (`macros.hpp:45-75`.) -/
def ecl_throw {σ : Type} (b : Build) (e : Flag) (s t : σ) : σ × Called :=
  match b with
  | .throwing => (s, .threw e)
  | .silent => (t, .gave false)

/-! ## Files -/

/-- `OFile` (`ofile_pos.hpp:297-300`): the file that the stream `file` writes to, `name`, `error_handler`.  Files are
numbers. -/
structure File where
  target : Option Nat
  name : Option Nat
  err : Flag
  deriving DecidableEq, Repr

/-- What `::open` and `fdopen` do. (Operating system, behind `ofile_pos.cpp:69-89`.) -/
inductive FileSys where
  | noFile (errno : Nat) | noStream (errno : Nat) | ok
  deriving DecidableEq, Repr

/-- `OFile()` (`ofile_pos.cpp:35-38`). -/
def File.new : File := ⟨none, none, .noError⟩

/-- `open()` (`ofile_pos.hpp:137`). -/
def File.isOpen (s : File) : Bool := s.target.isSome

/-- `open(name,mode)` (`ofile_pos.cpp:65-97`), both modes alike. -/
def File.open (b : Build) (s : File) (n : Nat) : FileSys → File × Called
  | .noFile e => ecl_throw b (openException e) ⟨s.target, some n, s.err⟩ ⟨s.target, some n, openError e⟩
  | .noStream e => ecl_throw b (openException e) ⟨none, some n, s.err⟩ ⟨none, some n, openError e⟩
  | .ok => (⟨some n, some n, .noError⟩, .gave true)

/-- `write(s,n)` (`ofile_pos.cpp:134-150`) of a text that is not empty, in release builds, the system taking it: the file
it goes to. -/
def File.write (s : File) : File × Option Nat :=
  match s.target with
  | none => (⟨s.target, s.name, .openError⟩, none)
  | some n => (⟨s.target, s.name, .noError⟩, some n)

/-! ## Sockets -/

/-- `SocketClient` (`socket_client_pos.hpp:194-198`), `SocketServer` (`socket_server_pos.hpp:216-220`) and `Serial`
(`serial_pos.hpp:386-392`): `is_open`, `error_handler`. -/
structure Dev where
  isOpen : Bool
  err : Flag
  deriving DecidableEq, Repr

/-- The default constructors (`socket_client_pos.hpp:69`, `serial_pos.hpp:144`). -/
def Dev.new : Dev := ⟨false, .noError⟩

/-- What `socket`, `gethostbyname` and `connect` do. (Operating system, behind
`socket_client_pos.cpp:78-121`.) -/
inductive ClientSys where
  | noSocket (errno : Nat) | noHost (herrno : Nat) | refused (errno : Nat) | ok
  deriving DecidableEq, Repr

/-- `SocketClient::close` (`socket_client_pos.cpp:59-62`). -/
def clientClose (s : Dev) : Dev := ⟨false, s.err⟩

/-- `SocketClient::open` (`socket_client_pos.cpp:64-129`). -/
def clientOpen (b : Build) (s : Dev) (r : ClientSys) : Dev × Called :=
  let s := if s.isOpen then clientClose s else s
  match r with
  | .noSocket e => ecl_throw b (socketException e) s ⟨s.isOpen, socketError e⟩
  | .noHost e => ecl_throw b (gethostbynameException e) s ⟨s.isOpen, gethostbynameError e⟩
  | .refused e => ecl_throw b (connectionException e) ⟨false, s.err⟩ ⟨false, connectionError e⟩
  | .ok => (⟨true, .noError⟩, .gave true)

/-- What `socket` and `bind` do. (Operating system, behind `socket_server_pos.cpp:60-94`.) -/
inductive ServerSys where
  | noSocket (errno : Nat) | noBind (errno : Nat) | ok
  deriving DecidableEq, Repr

/-- `SocketServer::open` (`socket_server_pos.cpp:48-95`). -/
def serverOpen (b : Build) (s : Dev) (r : ServerSys) : Dev × Called :=
  let s := if s.isOpen then ⟨false, s.err⟩ else s
  match r with
  | .noSocket e => ecl_throw b (socketException e) s ⟨s.isOpen, socketError e⟩
  | .noBind e => ecl_throw b (bindException e) ⟨true, s.err⟩ ⟨true, bindError e⟩
  | .ok => (⟨true, .noError⟩, .gave true)

/-! ## Serial ports -/

/-- The settings and what the system does; `badStop`: one and a half stop bits were asked for.
(`serial_pos.cpp:90-277`.) -/
inductive SerialSys where
  | badStop | noPort (errno : Nat) | badBaud | locked | noSpeed | ok
  deriving DecidableEq, Repr

/-- `open()` (`serial_pos.cpp:289-297`); `present`: the file of the port is there. -/
def serialQuery (s : Dev) (present : Bool) : Dev := ⟨s.isOpen && present, s.err⟩

/-- `Serial::open` (`serial_pos.cpp:90-277`), the time limit having a value. -/
def serialOpen (b : Build) (s : Dev) (r : SerialSys) : Dev × Called :=
  match r with
  | .badStop => ecl_throw b .configurationError s ⟨false, .invalidArgError⟩
  | .noPort e => ecl_throw b (openException e) ⟨false, s.err⟩ ⟨false, openError e⟩
  | .badBaud => ecl_throw b .configurationError ⟨false, s.err⟩ ⟨false, .invalidArgError⟩
  | .locked => ecl_throw b .openError ⟨false, s.err⟩ ⟨false, .isLockedError⟩
  | .noSpeed => ecl_throw b .configurationError ⟨false, s.err⟩ ⟨false, .invalidArgError⟩
  | .ok => (⟨true, .noError⟩, .gave true)

/-! ## Shared files -/

/-- The registered names, with the file of each (`shared_file.cpp:66-67`), and a handle: the file of its
`shared_instance` and the error of it.  The mutex is in `Model/Files.lean`. -/
structure Shared where
  known : Nat → Option File
  file : Option File
  err : Flag

/-- `SharedFile::open` (`shared_file.cpp:159-175`), `RegisterSharedFile` (`:73-98`), `SharedFileCommon` (`:48-60`). -/
def Shared.open (b : Build) (s : Shared) (n : Nat) (r : FileSys) : Shared × Called :=
  match s.known n with
  | some f => (⟨s.known, some f, .noError⟩, .gave true)
  | none =>
    match (File.new.open b n r) with
    | (_, .threw e) => (⟨s.known, some .new, .openError⟩, .threw e)
    | (f, .gave _) => (⟨fun m => if m = n then some f else s.known m, some f, .noError⟩, .gave true)

/-- Whether what is written to the handle can reach a file. (`shared_file.cpp:200-216`.) -/
def Shared.usable (s : Shared) : Bool :=
  match s.file with
  | none => false
  | some f => f.isOpen

/-! ## Shared memory -/

/-- What `data()` points to: the shared memory, memory that is not backed by the object, or nothing at all
(`(Storage*) MAP_FAILED`). (`shared_memory_pos.hpp:171-230`.) -/
inductive Pointer where
  | shared | unbacked | invalid
  deriving DecidableEq, Repr

/-- What `shm_open`, `mmap` and `ftruncate` do; `mmap` fails without a descriptor. (Operating
system, behind `shared_memory_pos.hpp:171-230`.) -/
inductive MemorySys where
  | noObject (e : Flag) | noMap (e : Flag) | noSize | ok
  deriving DecidableEq, Repr

/-- The constructor of `SharedMemory` (`ecl_ipc/include/ecl/ipc/shared_memory_pos.hpp:171-230`): an exception or what `data()`
points to.  Without exceptions it goes on after every failure. -/
def memoryNew (b : Build) : MemorySys → Except Flag Pointer
  | .noObject e => match b with | .throwing => .error e | .silent => .ok .invalid
  | .noMap e => match b with | .throwing => .error e | .silent => .ok .invalid
  | .noSize => match b with | .throwing => .error .openError | .silent => .ok .unbacked
  | .ok => .ok .shared

/-! ## Streams -/

/-- The error of a stream after its constructor: `error = device().error()` if opening gave `false`
(`file_streams.hpp:63-71`, `shared_file_stream.hpp:63-71`, `socket_streams.hpp:68-76`); `none`: the constructor throws. -/
def streamError (err : Flag) : Called → Option Flag
  | .threw _ => none
  | .gave true => some .noError
  | .gave false => some err

/-- `OFileStream(file_name, mode)` (`file_streams.hpp:63-71`). -/
def fileStream (b : Build) (n : Nat) (r : FileSys) : Option Flag :=
  let o := File.new.open b n r
  streamError o.1.err o.2

/-- `SocketClientStream(host_name, port_number)` (`socket_streams.hpp:68-76`). -/
def clientStream (b : Build) (r : ClientSys) : Option Flag :=
  let o := clientOpen b .new r
  streamError o.1.err o.2

/-- `SerialStream(port_name, ...)` (`serial_stream.hpp:65-76`): opens, then asks `open()`; `present`: the file of the port
is there when it asks. -/
def serialStream (b : Build) (r : SerialSys) (present : Bool) : Option Flag :=
  let o := serialOpen b .new r
  match o.2 with
  | .threw _ => none
  | .gave _ =>
    let s := serialQuery o.1 present
    some (if s.isOpen then .noError else s.err)

/-- `SharedFileStream(file_name, mode)` (`shared_file_stream.hpp:63-71`); the stream is fresh, other handles exist. -/
def sharedStream (b : Build) (known : Nat → Option File) (n : Nat) (r : FileSys) : Option Flag :=
  let o := Shared.open b ⟨known, none, .noError⟩ n r
  streamError o.1.err o.2

end Ecl.Opening
