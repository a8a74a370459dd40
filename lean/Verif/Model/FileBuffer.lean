import Verif.Model.Files
import Verif.Model.Errno

/-!
# Output files behind the buffer of the C library (`ecl_devices/src/lib/ofile_pos.cpp`)

`OFile` with what `Model/Files.lean` leaves out: bytes accepted by `fwrite` wait in the `FILE` until the C library passes
them on; `fwrite`, `fflush` and `fclose` may fail; the pointer `file` may be left pointing to a closed `FILE`.
-/
set_option autoImplicit false

namespace Ecl.FileBuffer
variable {α : Type _}

/-- Builds: `ecl_debug_throw` throws in the first, `ecl_throw` in the first two; with `ECL_DISABLE_EXCEPTIONS` neither
does (`ecl_exceptions/include/ecl/exceptions/macros.hpp:45-75, 85-127`). -/
inductive Build where
  | debug | release | silent
  deriving DecidableEq, Repr

/-- The member `file` (`ofile_pos.hpp:298`): null, a stream with its mode, its offset and the bytes that wait in it, or
a stream that has been closed. -/
inductive Ptr (α : Type _) where
  | null
  | live (mode : WMode) (pos : Nat) (pending : List α)
  | closed
  deriving DecidableEq, Repr

/-- The file on disk, `file`, `error_handler` (`ofile_pos.hpp:298-300`), and what waits in streams that nobody points to
any more. -/
structure St (α : Type _) where
  disk : List α
  file : Ptr α
  err : Flag
  leaked : List (List α)
  deriving DecidableEq, Repr

/-- `OFile()` (`ofile_pos.cpp:35-38`) beside a file on disk. -/
def new (disk : List α) : St α := ⟨disk, .null, .noError, []⟩

/-- How a call of the C library ends.  `done k`: success; `fwrite` passes on `k` bytes, the others all.  `fails k keep
errno`: `k` bytes have been passed on, the rest is kept in the stream or not (C libraries differ). -/
inductive Ans where
  | done (k : Nat)
  | fails (k : Nat) (keep : Bool) (errno : Nat)
  deriving DecidableEq, Repr

/-- How opening ends: `::open` fails, `fdopen` fails, or neither (`ofile_pos.cpp:69-89`). -/
inductive OpenAns where
  | ok | noFile (errno : Nat) | noStream (errno : Nat)
  deriving DecidableEq, Repr

/-- The disk after `bs` have been passed on (operating system, behind `fwrite`, `fflush`, `fclose`). -/
def passOn (disk : List α) (mode : WMode) (pos : Nat) (bs : List α) : List α :=
  match mode with
  | .new => OFile.overwrite disk pos bs
  | .append => disk ++ bs

/-- What waits in the stream when the pointer to it is overwritten. -/
def forget (s : St α) : List (List α) :=
  match s.file with
  | .live _ _ pending => pending :: s.leaked
  | _ => s.leaked

/-- `open(name,mode)` (`ofile_pos.cpp:65-97`). -/
def openFile (b : Build) (s : St α) (mode : WMode) : OpenAns → Res (St α) Int
  | .ok => .ok { s with file := .live mode 0 [], err := .noError, leaked := forget s } 1
  | .noFile e => match b with
    | .silent => .ok { s with err := Errno.openError e } 0
    | _ => .throw s (Errno.openException e)
  | .noStream e => match b with
    | .silent => .ok { s with file := .null, err := Errno.openError e, leaked := forget s } 0
    | _ => .throw { s with file := .null, leaked := forget s } (Errno.openException e)

/-- `write(const char*, n)` (`ofile_pos.cpp:134-150`); `write(const char&)` (`116-132`) and `write(const ByteArray&)`
(`ofile_pos.hpp:307-324`) do the same.  `fwrite` of no bytes gives 0. -/
def write (b : Build) (s : St α) (bs : List α) (a : Ans) : Res (St α) Int :=
  match s.file with
  | .null => match b with
    | .debug => .throw s .openError
    | _ => .ok { s with err := .openError } (-1)
  | .closed => .ub
  | .live mode pos pending =>
    let failed : St α → Res (St α) Int := fun s => match b with
      | .debug => .throw s .writeError
      | _ => .ok { s with err := .writeError } (-1)
    if bs = [] then failed s
    else
      let all := pending ++ bs
      match a with
      | .done k => .ok { s with
          disk := passOn s.disk mode pos (all.take k)
          file := .live mode (pos + (all.take k).length) (all.drop k)
          err := .noError } bs.length
      | .fails k keep _ => failed { s with
          disk := passOn s.disk mode pos (all.take k)
          file := .live mode (pos + (all.take k).length) (if keep then all.drop k else []) }

/-- `flush()` (`ofile_pos.cpp:152-164`).  `fflush(NULL)` flushes the other streams of the process; whether they let it
succeed is part of the answer. -/
def flush (b : Build) (s : St α) (a : Ans) : Res (St α) Int :=
  let failed : St α → Res (St α) Int := fun s => match b with
    | .debug => .throw s .unknownError
    | _ => .ok { s with err := .unknownError } 0
  match s.file, a with
  | .null, .done _ => .ok { s with err := .noError } 1
  | .null, .fails _ _ _ => failed s
  | .closed, _ => .ub
  | .live mode pos pending, .done _ => .ok { s with
      disk := passOn s.disk mode pos pending
      file := .live mode (pos + pending.length) []
      err := .noError } 1
  | .live mode pos pending, .fails k keep _ => failed { s with
      disk := passOn s.disk mode pos (pending.take k)
      file := .live mode (pos + (pending.take k).length) (if keep then pending.drop k else []) }

/-- `close()` (`ofile_pos.cpp:99-111`).  `fclose` gives up the stream also when it fails; `file` is reset only after
success. -/
def close (b : Build) (s : St α) (a : Ans) : Res (St α) Int :=
  match s.file, a with
  | .null, _ => .ok { s with err := .noError } 1
  | .closed, _ => .ub
  | .live mode pos pending, .done _ =>
    .ok { s with disk := passOn s.disk mode pos pending, file := .null, err := .noError } 1
  | .live mode pos pending, .fails k _ e =>
    let s := { s with disk := passOn s.disk mode pos (pending.take k), file := .closed }
    match b with
    | .silent => .ok { s with err := Errno.closeError e } 0
    | _ => .throw s (Errno.closeException e)

/-- `~OFile()` (`ofile_pos.cpp:51-60`); afterwards the object stands for a new one. -/
def destroy (s : St α) (a : Ans) : Res (St α) Int :=
  match s.file, a with
  | .null, _ => .ok { s with file := .null, err := .noError } 0
  | .closed, _ => .ub
  | .live mode pos pending, .done _ =>
    .ok { s with disk := passOn s.disk mode pos pending, file := .null, err := .noError } 0
  | .live mode pos pending, .fails k _ _ =>
    .ok { s with disk := passOn s.disk mode pos (pending.take k), file := .null, err := .noError } 0

/-- The calls of the class (`ofile_pos.cpp:51-164`), with the answers of the system. -/
inductive Op (α : Type _) where
  | openFile (mode : WMode) (a : OpenAns)
  | write (bs : List α) (a : Ans)
  | flush (a : Ans)
  | close (a : Ans)
  | destroy (a : Ans)

/-- One call. -/
def step (b : Build) (s : St α) : Op α → Res (St α) Int
  | .openFile mode a => openFile b s mode a
  | .write bs a => write b s bs a
  | .flush a => flush b s a
  | .close a => close b s a
  | .destroy a => destroy s a

end Ecl.FileBuffer
