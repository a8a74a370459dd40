import Verif.Core.Outcome

/-!
# Model of `ecl_ipc/shared_memory_pos`

All handles (objects of class `SharedMemory`, in any number of processes) have one name: names are
made by putting `/` in front of the identifier, so different identifiers are different names, and
names do not influence each other.  The system keeps what the name stands for and all memory
objects ever created, numbered; numbers are never used again.  Every system call of a constructor
or destructor is an action of its own, so that the actions of different processes interleave.  A
system call that can fail for reasons outside the model is told whether it fails, with the value of
`errno`.
-/
set_option autoImplicit false

namespace Ecl.SharedMemory

/-- A memory object of the system: its size and its bytes. (Behind `shared_memory_pos.cpp:90-93`,
`shared_memory_pos.hpp:196-207`.) -/
structure Obj where
  size : Nat
  data : Nat → UInt8

/-- `ftruncate`: bytes that are new are zero. (`ftruncate` at `shared_memory_pos.hpp:207`.) -/
def Obj.resize (o : Obj) (n : Nat) : Obj :=
  ⟨n, fun i => if i < n ∧ i < o.size then o.data i else 0⟩

/-- The bytes of a mapped object that can be touched: whole pages of size `page` that hold a part of
the object.  Touching others kills the process (`SIGBUS`). (For the accesses through `data()`,
`shared_memory_pos.hpp:147`, `228`.) -/
def Obj.limit (page : Nat) (o : Obj) : Nat := (o.size + page - 1) / page * page

/-- (`shared_memory_pos.hpp:147`, `228`.) -/
def Obj.put (o : Obj) (i : Nat) (v : UInt8) : Obj :=
  ⟨o.size, fun j => if j = i then v else o.data j⟩

/-- A storage type: `sizeof(Storage)` and the bytes of `Storage()`.
(`shared_memory_pos.hpp:171-246`.) -/
structure Kind where
  len : Nat
  init : Nat → UInt8

/-- How far a handle is: before the first `shm_open`, before the second, with a descriptor, mapped,
before `*storage = Storage()`, constructed, in the destructor before `unlink`, destroyed, thrown
out of the constructor, killed.  `manager` is the member `shared_memory_manager`.
(`shared_memory_pos.hpp:176-246`.) -/
inductive Phase where
  | creating
  | opening
  | opened (o : Nat) (manager : Bool)
  | mapped (o : Nat) (manager : Bool)
  | sized (o : Nat)
  | ready (o : Nat) (manager : Bool)
  | leaving
  | gone
  | failed (flag : Flag)
  | killed
  deriving DecidableEq, Repr

/-- A handle; `fd`: its constructor has a descriptor open, `mapping`: its process has the mapping.
(`shared_memory_pos.hpp:117-118`, `151-152`.) -/
structure Handle where
  kind : Kind
  phase : Phase
  fd : Bool
  mapping : Bool

/-- (Behind `shared_memory_pos.cpp:39-100`, `shared_memory_pos.hpp:171-246`.) -/
structure Sys where
  name : Option Nat
  obj : Nat → Obj
  fresh : Nat
  handle : Nat → Option Handle

/-- (Before any call of `shared_memory_pos.hpp:171-246`.) -/
def Sys.init : Sys := ⟨none, fun _ => ⟨0, fun _ => 0⟩, 0, fun _ => none⟩

/-- (Change of one entry by the calls of `shared_memory_pos.hpp:171-246`.) -/
def upd {α : Type} (f : Nat → α) (k : Nat) (v : α) : Nat → α := fun x => if x = k then v else f x

/-- `openSharedSectionException`: `ecl_ipc/src/lib/shared_memory_pos.cpp:109-139`, with the numbers
Linux uses.  Whether the exception is thrown there or returned makes no difference. -/
def openFlag : Nat → Flag
  | 13 => .permissionsError   -- EACCES
  | 24 | 23 => .outOfResourcesError   -- EMFILE, ENFILE
  | 2 | 36 | 22 => .invalidArgError   -- ENOENT, ENAMETOOLONG, EINVAL
  | 38 => .notSupportedError   -- ENOSYS
  | _ => .unknownError

/-- `memoryMapException`: `ecl_ipc/src/lib/shared_memory_pos.cpp:141-179`. -/
def mapFlag : Nat → Flag
  | 13 => .permissionsError   -- EACCES
  | 11 => .memoryError   -- EAGAIN
  | 9 | 22 => .invalidArgError   -- EBADF, EINVAL
  | 23 => .outOfResourcesError   -- ENFILE
  | 19 => .notSupportedError   -- ENODEV
  | 12 => .memoryError   -- ENOMEM
  | 1 => .permissionsError   -- EPERM
  | _ => .unknownError

/-- Actions of a handle.  `err` is the `errno` of a failing call.
(`shared_memory_pos.hpp:171-246`.) -/
inductive Act where
  /-- Start of the constructor. -/
  | construct (k : Kind)
  /-- `shm_open` with `O_CREAT|O_EXCL`. -/
  | create (err : Option Nat)
  /-- `shm_open` without these flags. -/
  | attach (err : Option Nat)
  /-- `mmap`. -/
  | map (err : Option Nat)
  /-- `ftruncate` and `close`. -/
  | size (ok : Bool)
  /-- `*storage = Storage()`. -/
  | init
  /-- The user stores a byte through `data()`. -/
  | write (i : Nat) (v : UInt8)
  /-- The user calls `unlink()`. -/
  | unlink
  /-- Destructor: `munmap`. -/
  | unmap
  /-- Destructor of the manager: `unlink`. -/
  | release
  /-- The process ends without running destructors. -/
  | crash

/-- `EEXIST`. (`shared_memory_pos.cpp:91`.) -/
def eexist : Nat := 17

/-- `errno` after `unlink()` (`shared_memory_pos.cpp:39-41`), when it was `e` before: `shm_unlink`
fails with `ENOENT` when there is no such name. -/
def errnoAfterUnlink (name : Option Nat) (e : Nat) : Nat := if name.isSome then e else 2

/-- (Change of one handle, `shared_memory_pos.hpp:171-246`.) -/
def Sys.put (s : Sys) (h : Nat) (x : Handle) : Sys := { s with handle := upd s.handle h (some x) }

/-- `SharedMemoryBase::open`, first call (`shared_memory_pos.cpp:90-96`). -/
def create (s : Sys) (h : Nat) (k : Kind) : Option Nat → Option Sys
  | some e => if e = eexist then none else some (s.put h ⟨k, .failed (openFlag e), false, false⟩)
  | none =>
    match s.name with
    | some _ => some (s.put h ⟨k, .opening, false, false⟩)
    | none => some { (s.put h ⟨k, .opened s.fresh true, true, false⟩) with
        name := some s.fresh
        obj := upd s.obj s.fresh ⟨0, fun _ => 0⟩
        fresh := s.fresh + 1 }

/-- `SharedMemoryBase::open`, second call (`shared_memory_pos.cpp:93`). -/
def attach (s : Sys) (h : Nat) (k : Kind) : Option Nat → Sys
  | some e => s.put h ⟨k, .failed (openFlag e), false, false⟩
  | none =>
    match s.name with
    | none => s.put h ⟨k, .failed (openFlag 2), false, false⟩
    | some o => s.put h ⟨k, .opened o false, true, false⟩

/-- `mmap` in the constructor (`shared_memory_pos.hpp:196-202`); `errno` is read after `unlink`. -/
def map (s : Sys) (h : Nat) (k : Kind) (o : Nat) (manager : Bool) : Option Nat → Sys
  | none => s.put h ⟨k, .mapped o manager, true, true⟩
  | some e => { (s.put h ⟨k, .failed (mapFlag (errnoAfterUnlink s.name e)), false, false⟩) with
      name := none }

/-- `ftruncate` and `close` in the constructor (`shared_memory_pos.hpp:207-224`). -/
def size (s : Sys) (h : Nat) (k : Kind) (o : Nat) (manager : Bool) (ok : Bool) : Sys :=
  if ok then
    { (s.put h ⟨k, if manager then .sized o else .ready o false, false, true⟩) with
      obj := upd s.obj o ((s.obj o).resize k.len) }
  else { (s.put h ⟨k, .failed .openError, false, true⟩) with name := none }

/-- `*storage = Storage()` (`shared_memory_pos.hpp:227-229`), as one store. -/
def initialise (page : Nat) (s : Sys) (h : Nat) (k : Kind) (o : Nat) : Sys :=
  if k.len ≤ (s.obj o).limit page then
    { (s.put h ⟨k, .ready o true, false, true⟩) with
      obj := upd s.obj o ⟨(s.obj o).size, fun i => if i < k.len then k.init i else (s.obj o).data i⟩ }
  else s.put h ⟨k, .killed, false, false⟩

/-- A byte stored through `data()` (`shared_memory_pos.hpp:147`). -/
def write (page : Nat) (s : Sys) (h : Nat) (x : Handle) (o i : Nat) (v : UInt8) : Sys :=
  if i < (s.obj o).limit page then { s with obj := upd s.obj o ((s.obj o).put i v) }
  else s.put h ⟨x.kind, .killed, false, false⟩

/-- Destructor up to `munmap` (`shared_memory_pos.hpp:237-246`). -/
def unmap (s : Sys) (h : Nat) (k : Kind) (manager : Bool) : Sys :=
  s.put h ⟨k, if manager then .leaving else .gone, false, false⟩

/-- Phases in which the process is still at work on the handle. (Between
`shared_memory_pos.hpp:230` and `237`.) -/
def Phase.alive : Phase → Bool
  | .gone | .failed _ | .killed => false
  | _ => true

/-- One action of handle `h`; `none` when it is not its turn.  A store outside the storage is not an
action. (`shared_memory_pos.hpp:171-246`.) -/
def step (page : Nat) (s : Sys) (h : Nat) (a : Act) : Option Sys :=
  match a, s.handle h with
  | .construct k, none => some (s.put h ⟨k, .creating, false, false⟩)
  | .create err, some ⟨k, .creating, _, _⟩ => create s h k err
  | .attach err, some ⟨k, .opening, _, _⟩ => some (attach s h k err)
  | .map err, some ⟨k, .opened o m, _, _⟩ => some (map s h k o m err)
  | .size ok, some ⟨k, .mapped o m, _, _⟩ => some (size s h k o m ok)
  | .init, some ⟨k, .sized o, _, _⟩ => some (initialise page s h k o)
  | .write i v, some ⟨k, .ready o m, f, q⟩ =>
    if i < k.len then some (write page s h ⟨k, .ready o m, f, q⟩ o i v) else none
  | .unlink, some ⟨_, .ready _ _, _, _⟩ => some { s with name := none }
  | .unmap, some ⟨k, .ready _ m, _, _⟩ => some (unmap s h k m)
  | .release, some ⟨k, .leaving, _, _⟩ =>
    some { (s.put h ⟨k, .gone, false, false⟩) with name := none }
  | .crash, some x => if x.phase.alive then some (s.put h ⟨x.kind, .killed, false, false⟩) else none
  | _, _ => none

/-- A history: the actions of all handles in the order they happen.
(`shared_memory_pos.hpp:171-246`.) -/
def run (page : Nat) : Sys → List (Nat × Act) → Option Sys
  | s, [] => some s
  | s, e :: es =>
    match step page s e.1 e.2 with
    | none => none
    | some s' => run page s' es

/-- Reading a byte of the storage through `data()`: only on a constructed handle, only inside the
storage, and `SIGBUS` when the object has become too small. (Through `data()`,
`shared_memory_pos.hpp:147`.) -/
def read (page : Nat) (s : Sys) (h i : Nat) : Outcome UInt8 :=
  match s.handle h with
  | some ⟨k, .ready o _, _, _⟩ =>
    if i < k.len ∧ i < (s.obj o).limit page then .ok ((s.obj o).data i) else .ub
  | _ => .ub

end Ecl.SharedMemory
