import Verif.Model.Console

/-!
# Model of `ecl::OFile` and `ecl::SharedFile`

`ecl_devices/src/lib/ofile_pos.cpp`, `ecl_devices/src/lib/shared_file.cpp`.

Bytes are an arbitrary type `α`: none of this code looks at them.
-/
set_option autoImplicit false

namespace Ecl

/-- `WriteMode` (`modes.hpp`). (`modes.hpp:35-38`.) -/
inductive WMode where
  | new | append
  deriving Repr, DecidableEq

/-! ## `OFile` -/

/-- A file on disk and an `OFile` on it: the contents, the stream (its mode and offset) if open, and
the error flag.  The C library's own buffer is not represented: bytes accepted by `fwrite` are in the
file. (`ofile_pos.hpp:297-300`, `ofile_pos.cpp:35-150`.) -/
structure OFile (α : Type _) where
  disk : List α
  stream : Option (WMode × Nat)
  err : Flag
  deriving Repr, DecidableEq

namespace OFile
variable {α : Type _}

/-- `open(name,mode)`: `ofile_pos.cpp:65-97`, for an `::open` that succeeds.  Mode `New` passes
`O_WRONLY|O_CREAT` — without `O_TRUNC` — and mode `Append` adds `O_APPEND`. -/
def openFile (s : OFile α) (mode : WMode) : OFile α := ⟨s.disk, some (mode, 0), .noError⟩

/-- Bytes stored at an offset of a file. (Operating system, behind `fwrite` at
`ofile_pos.cpp:134-150`.) -/
def overwrite (disk : List α) (pos : Nat) (bs : List α) : List α :=
  disk.take pos ++ bs ++ disk.drop (pos + bs.length)

/-- What `write(2)` does with the bytes in the two modes. -/
def emit (s : OFile α) (mode : WMode) (pos : Nat) (bs : List α) : OFile α :=
  match mode with
  | .new => { s with disk := overwrite s.disk pos bs, stream := some (.new, pos + bs.length) }
  | .append => { s with disk := s.disk ++ bs, stream := some (.append, pos + bs.length) }

/-- `write(const char*, n)`: `ofile_pos.cpp:134-150`.  `fwrite(s,n,1,file)` gives 1 on success and 0
when it fails or when `n = 0`.  `ok` says whether the device accepts the bytes. -/
def write (m : Mode) (s : OFile α) (bs : List α) (ok : Bool) : Res (OFile α) Int :=
  match s.stream with
  | none =>
    match m with
    | .debug => .throw s .openError
    | .release => .ok { s with err := .openError } (-1)
  | some (mode, pos) =>
    if ok ∧ bs ≠ [] then .ok { emit s mode pos bs with err := .noError } bs.length
    else match m with
      | .debug => .throw s .writeError
      | .release => .ok { s with err := .writeError } (-1)

/-- `close()`: `ofile_pos.cpp:99-111`, for an `fclose` that succeeds. -/
def close (s : OFile α) : OFile α := ⟨s.disk, none, .noError⟩

/-- A sequence of successful writes. (Calls of `ofile_pos.cpp:134-150`.) -/
def writes (m : Mode) (s : OFile α) : List (List α) → Outcome (OFile α)
  | [] => .ok s
  | bs :: rest =>
    match write m s bs true with
    | .ok s _ => writes m s rest
    | .throw _ e => .throw e
    | .ub => .ub

end OFile

/-! ## `SharedFile` -/

namespace Shared
variable {α : Type _}

/-- `CharBuffer::buffer_size` (`character_buffer.hpp:44`). -/
def cap : Nat := 4096

/-- `SharedFileCommon` (`shared_file.hpp:81-85`): reference count, file name, the flag of the `OFile`
and the own error flag.  The `count` of an object made by the default constructor is indeterminate
(`none`).  Wrap-around of the `unsigned int` counter is not represented. -/
structure Common where
  count : Option Nat
  name : Option Nat
  ferr : Flag
  err : Flag
  deriving Repr, DecidableEq

/-- What happens to the files. (The effects of `ofile_pos.cpp:65-111` on the file system, observed
through `shared_file.cpp:73-121`.) -/
inductive Ev where
  | opened (name : Nat) | closed (name : Nat)
  deriving Repr, DecidableEq

/-- A `SharedFile` object: its `shared_instance` (`none`: never initialised) and its buffer.
(`shared_file.hpp:232-235`.) -/
structure Handle (α : Type _) where
  inst : Option Nat
  buf : List α
  deriving Repr, DecidableEq

/-- The process: heap objects of type `SharedFileCommon`, next fresh address, the manager's map and
mutex (`shared_file.cpp:66-67`), the user's `SharedFile` objects, the bytes sent to each file, the
log of opens and closes, and whether the process hangs in a lock. Names and addresses are numbers. -/
structure World (α : Type _) where
  heap : Nat → Option Common
  next : Nat
  map : Nat → Option Nat
  locked : Bool
  handles : Nat → Option (Handle α)
  file : Nat → List α
  log : List Ev
  hung : Bool

/-- What the operating system does: which names can be opened, which files accept bytes.
(Operating system, behind `ofile_pos.cpp:69-89` and `134-150`.) -/
structure Env where
  canOpen : Nat → Bool
  canWrite : Nat → Bool

/-- The start of the process: no shared file exists (`shared_file.cpp:66-67`). -/
def World.init : World α :=
  ⟨fun _ => none, 0, fun _ => none, false, fun _ => none, fun _ => [], [], false⟩

/-- Update of a function at one point. (Stores to the map and the members of
`shared_file.hpp:81-95`.) -/
def upd {β : Type _} (f : Nat → β) (i : Nat) (v : β) : Nat → β := fun j => if j = i then v else f j

/-- Result of a call inside the library: `hang` is a lock that never returns. (Results of
`shared_file.cpp:73-216`.) -/
inductive R (α : Type _) (β : Type _) where
  | ok (w : World α) (b : β)
  | throw (w : World α) (e : Flag)
  | hang (w : World α)
  | ub

/-- `mutex.lock()` by a thread that may already hold it: `mutex_pos.cpp:69-75`; the mutex is of type
ERRORCHECK in debug builds (the call throws) and NORMAL in release builds (the call never returns),
`mutex_pos.cpp:43-46`.  One thread only. -/
def lock (m : Mode) (w : World α) : R α Unit :=
  if w.locked then
    match m with
    | .debug => .throw w .usageError
    | .release => .hang { w with hung := true }
  else .ok { w with locked := true } ()

/-- `RegisterSharedFile`: `shared_file.cpp:73-98`.  When the file cannot be opened, the exception
leaves without `mutex.unlock()`. (The flag of an open failure depends on `errno`; simplified to
`openError`.) -/
def register (m : Mode) (env : Env) (w : World α) (name : Nat) : R α Nat :=
  match lock m w with
  | .throw w e => .throw w e
  | .hang w => .hang w
  | .ub => .ub
  | .ok w _ =>
    match w.map name with
    | some id =>
      match w.heap id with
      | none => .ub
      | some c =>
        .ok { w with heap := upd w.heap id (some { c with count := c.count.map (· + 1) }),
                     locked := false } id
    | none =>
      if env.canOpen name then
        .ok { w with heap := upd w.heap w.next (some ⟨some 1, some name, .noError, .noError⟩),
                     next := w.next + 1, map := upd w.map name (some w.next),
                     log := w.log ++ [.opened name], locked := false } w.next
      else .throw w .openError

/-- `SharedFile::open`: `shared_file.cpp:159-175`, giving the new `shared_instance`.  On an exception
a fresh `SharedFileCommon` with flag `OpenError` is made before rethrowing. -/
def openInst (m : Mode) (env : Env) (w : World α) (name : Nat) : R α (Nat × Option Flag) :=
  match register m env w name with
  | .ub => .ub
  | .hang w => .hang w
  | .ok w id =>
    match w.heap id with
    | none => .ub
    | some c => .ok { w with heap := upd w.heap id (some { c with err := .noError }) } (id, none)
  | .throw w e =>
    .ok { w with heap := upd w.heap w.next (some ⟨none, none, .noError, .openError⟩),
                 next := w.next + 1 } (w.next, some e)

/-- `delete` of a `SharedFileCommon`: its `OFile` closes the file (`ofile_pos.cpp:51-60`). -/
def free (w : World α) (id : Nat) (c : Common) : World α :=
  { w with heap := upd w.heap id none,
           log := match c.name with | some n => w.log ++ [.closed n] | none => w.log }

/-- `DeRegisterSharedFile`: `shared_file.cpp:104-121`. -/
def deregister (m : Mode) (w : World α) (name : Option Nat) : R α Unit :=
  match lock m w with
  | .throw w e => .throw w e
  | .hang w => .hang w
  | .ub => .ub
  | .ok w _ =>
    match name.bind w.map with
    | none => .throw w .closeError
    | some id =>
      match w.heap id with
      | none => .ub
      | some c =>
        if c.count = some 1 then
          .ok { free w id c with map := (match name with | some n => upd w.map n none | none => w.map),
                                 locked := false } ()
        else
          .ok { w with heap := upd w.heap id (some { c with count := c.count.map (· - 1) }),
                       locked := false } ()

/-- `~SharedFile`: `shared_file.cpp:145-157`.  The exception of `DeRegisterSharedFile` is swallowed. -/
def destroy (m : Mode) (w : World α) (h : Nat) (hd : Handle α) : R α Unit :=
  match hd.inst with
  | none => .ub
  | some id =>
    match w.heap id with
    | none => .ub
    | some c =>
      if c.err = .noError then
        match deregister m w c.name with
        | .ok w _ => .ok { w with handles := upd w.handles h none } ()
        | .throw w _ => .ok { w with handles := upd w.handles h none } ()
        | .hang w => .hang w
        | .ub => .ub
      else .ok { free w id c with handles := upd w.handles h none } ()

/-- `SharedFile::flush`: `shared_file.cpp:200-216` with `OFile::write`, `ofile_pos.cpp:134-150`.  In
debug builds a failed write throws before the file's flag is set and before the buffer is cleared. -/
def flush (m : Mode) (env : Env) (w : World α) (h : Nat) (hd : Handle α) : R α Bool :=
  match hd.inst with
  | none => .ub
  | some id =>
    match w.heap id with
    | none => .ub
    | some c =>
      match c.name with
      | none =>
        match m with
        | .debug => .throw { w with heap := upd w.heap id (some { c with err := c.ferr }) } .openError
        | .release =>
          .ok { w with heap := upd w.heap id (some { c with ferr := .openError, err := .openError }),
                       handles := upd w.handles h (some { hd with buf := [] }) } false
      | some n =>
        if env.canWrite n ∧ hd.buf ≠ [] then
          .ok { w with heap := upd w.heap id (some { c with ferr := .noError, err := .noError }),
                       file := upd w.file n (w.file n ++ hd.buf),
                       handles := upd w.handles h (some { hd with buf := [] }) } true
        else
          match m with
          | .debug =>
            .throw { w with heap := upd w.heap id (some { c with err := c.ferr }) } .writeError
          | .release =>
            .ok { w with heap := upd w.heap id (some { c with ferr := .writeError, err := .writeError }),
                         handles := upd w.handles h (some { hd with buf := [] }) } false

/-- The loop of `write(const char*, n)`: `shared_file.cpp:189-196`, on the bytes still to be written;
fuel as for the console. -/
def loop (m : Mode) (env : Env) (n : Int) (h : Nat) : Nat → World α → List α → R α Int
  | _, w, [] => .ok w n
  | 0, _, _ :: _ => .ub
  | f + 1, w, b :: bs =>
    match w.handles h with
    | none => .ub
    | some hd =>
      match Buf.append cap hd.buf (b :: bs) with
      | .ok (buf, k) =>
        let hd := { hd with buf := buf }
        let w := { w with handles := upd w.handles h (some hd) }
        if Buf.full cap buf then
          match flush m env w h hd with
          | .ok w true => loop m env n h f w ((b :: bs).drop k)
          | .ok w false => .ok w (-1)
          | .throw w e => .throw w e
          | .hang w => .hang w
          | .ub => .ub
        else loop m env n h f w ((b :: bs).drop k)
      | .throw e => .throw w e
      | .ub => .ub

/-- `write(const char*, n)`: `shared_file.cpp:187-198`; an endless loop for `n ≥ 2^32`. -/
def write (m : Mode) (env : Env) (w : World α) (h : Nat) (bs : List α) : R α Int :=
  if bs.length < 4294967296 then loop m env bs.length h (2 * bs.length + 1) w bs else .ub

/-- `write(const char&)`: `shared_file.cpp:177-185`. -/
def put (m : Mode) (env : Env) (w : World α) (h : Nat) (hd : Handle α) (b : α) : R α Int :=
  match Buf.append1 cap hd.buf b with
  | .ok (buf, k) =>
    let hd := { hd with buf := buf }
    let w := { w with handles := upd w.handles h (some hd) }
    if Buf.full cap buf then
      match flush m env w h hd with
      | .ok w true => .ok w k
      | .ok w false => .ok w (-1)
      | .throw w e => .throw w e
      | .hang w => .hang w
      | .ub => .ub
    else .ok w k
  | .throw e => .throw w e
  | .ub => .ub

/-- Calls of the user; `h` names a variable of type `SharedFile`. (`shared_file.hpp:130-228`.) -/
inductive Op (α : Type _) where
  | construct (h name : Nat)
  | default (h : Nat)
  | openFile (h name : Nat)
  | put (h : Nat) (b : α)
  | write (h : Nat) (bs : List α)
  | flush (h : Nat)
  | count (h : Nat)
  | destroy (h : Nat)
  deriving Repr, DecidableEq

/-- What the user observes (the return types at `shared_file.hpp:130-228`). -/
inductive Out where
  | unit | num (n : Int) | bool (b : Bool) | hangs
  deriving Repr, DecidableEq

/-- A library result as the result of a call. (`shared_file.cpp:135-216`.) -/
def R.toRes {β : Type _} (f : β → Out) : R α β → Res (World α) Out
  | .ok w b => .ok w (f b)
  | .throw w e => .throw w e
  | .hang w => .ok w .hangs
  | .ub => .ub

/-- One call.  A process that hangs makes no further progress.  Using a variable that is not alive, or
constructing one twice, is undefined. (`shared_file.cpp:135-216`, `shared_file.hpp:130-230`.) -/
def step (m : Mode) (env : Env) (w : World α) (op : Op α) : Res (World α) Out :=
  if w.hung then .ok w .hangs
  else match op with
  | .construct h name =>  -- `shared_file.cpp:135-143`
    match w.handles h with
    | some _ => .ub
    | none =>
      match openInst m env w name with
      | .ok w (id, none) => .ok { w with handles := upd w.handles h (some ⟨some id, []⟩) } .unit
      | .ok w (_, some e) => .throw w e
      | .throw w e => .throw w e
      | .hang w => .ok w .hangs
      | .ub => .ub
  | .default h =>  -- `shared_file.hpp:130`
    match w.handles h with
    | some _ => .ub
    | none => .ok { w with handles := upd w.handles h (some ⟨none, []⟩) } .unit
  | .openFile h name =>  -- `shared_file.cpp:159-175`
    match w.handles h with
    | none => .ub
    | some hd =>
      match openInst m env w name with
      | .ok w (id, none) => .ok { w with handles := upd w.handles h (some { hd with inst := some id }) } (.bool true)
      | .ok w (id, some e) => .throw { w with handles := upd w.handles h (some { hd with inst := some id }) } e
      | .throw w e => .throw w e
      | .hang w => .ok w .hangs
      | .ub => .ub
  | .put h b =>
    match w.handles h with
    | none => .ub
    | some hd => (put m env w h hd b).toRes .num
  | .write h bs =>
    match w.handles h with
    | none => .ub
    | some _ => (write m env w h bs).toRes .num
  | .flush h =>
    match w.handles h with
    | none => .ub
    | some hd => (flush m env w h hd).toRes .bool
  | .count h =>  -- `shared_file.hpp:178`
    match w.handles h with
    | none => .ub
    | some hd =>
      match hd.inst.bind w.heap with
      | some c => match c.count with | some k => .ok w (.num k) | none => .ub
      | none => .ub
  | .destroy h =>
    match w.handles h with
    | none => .ub
    | some hd => (destroy m w h hd).toRes fun _ => .unit

end Shared
end Ecl
