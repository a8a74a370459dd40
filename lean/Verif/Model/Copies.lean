import Verif.Model.Console

/-!
# Model of copies of devices

None of the devices declares a copy constructor or an assignment; the ones the compiler supplies copy member by
member, pointers included.  Streams have their device as a member (`base_text_stream.hpp:53`), so a copy of a
stream copies the device in the same way.
-/
set_option autoImplicit false

namespace Ecl.Copies

/-! ## Devices with a pointer to something they release -/

/-- The objects of one class that exist, each with what its pointer points to (`none`: null); what has been
acquired and not yet released; and the number of acquisitions so far.  The pointer is `file` of `OFile`
(`ofile_pos.hpp:293-301`), `buffer` of `String` (`string.hpp:196-201`), `semaphore` of `Semaphore`
(`semaphore_pos.hpp:183-194`, each name opened by one object of the process only). -/
structure Heap where
  obj : Nat → Option (Option Nat)
  live : List Nat
  next : Nat

/-- No objects yet (before the constructors at `ofile_pos.cpp:35-49`). -/
def Heap.empty : Heap := ⟨fun _ => none, [], 0⟩

/-- Calls.  `make`: `OFile()`; `acquire`: `OFile(name)` and `open` (`ofile_pos.cpp:40-49,65-97`), `String(str)`
(`string.cpp:27-34`), `Semaphore(name)` (`semaphore_pos.cpp:45-94`), when they succeed; `use`: calls that follow the
pointer; `renew`: calls that replace what it points to (`String::clear`, `write` when the buffer is too small:
`string.cpp:48-58,108-115,125-147`); `close`: `OFile::close`; `copy`, `assign`: supplied by the compiler. -/
inductive HOp where
  | make (o : Nat) | acquire (o : Nat) | copy (p o : Nat) | assign (p o : Nat)
  | use (o : Nat) | renew (o : Nat) | close (o : Nat) | destroy (o : Nat)
  deriving DecidableEq, Repr

/-- Change one object. (Any member function.) -/
def set (f : Nat → Option (Option Nat)) (o : Nat) (v : Option (Option Nat)) : Nat → Option (Option Nat) :=
  fun x => if x = o then v else f x

/-- One call.  `fclose` (`ofile_pos.cpp:54,102`), `delete[]` (`string.cpp:36,54,110`) and `sem_close`
(`semaphore_pos.cpp:99`) of what was released before is undefined, and so is using it.  (`fclose` succeeds.)  A
call on an object that does not exist, or a constructor for one that does, is undefined. -/
def step (h : Heap) : HOp → Outcome Heap
  | .make o => if (h.obj o).isSome then .ub else .ok { h with obj := set h.obj o (some none) }
  | .acquire o => .ok ⟨set h.obj o (some (some h.next)), h.next :: h.live, h.next + 1⟩
  | .copy p o =>
    match h.obj o with
    | none => .ub
    | some v => if (h.obj p).isSome then .ub else .ok { h with obj := set h.obj p (some v) }
  | .assign p o =>
    match h.obj o with
    | none => .ub
    | some v => if (h.obj p).isSome then .ok { h with obj := set h.obj p (some v) } else .ub
  | .use o =>
    match h.obj o with
    | none => .ub
    | some none => .ok h
    | some (some r) => if r ∈ h.live then .ok h else .ub
  | .renew o =>
    match h.obj o with
    | none => .ub
    | some none => .ok h
    | some (some r) =>
      if r ∈ h.live then .ok ⟨set h.obj o (some (some h.next)), h.next :: h.live.erase r, h.next + 1⟩ else .ub
  | .close o =>
    match h.obj o with
    | none => .ub
    | some none => .ok h
    | some (some r) => if r ∈ h.live then .ok ⟨set h.obj o (some none), h.live.erase r, h.next⟩ else .ub
  | .destroy o =>
    match h.obj o with
    | none => .ub
    | some none => .ok { h with obj := set h.obj o none }
    | some (some r) => if r ∈ h.live then .ok ⟨set h.obj o none, h.live.erase r, h.next⟩ else .ub

/-- A history of calls (`ofile_pos.cpp:35-150`, `string.cpp:27-150`, `semaphore_pos.cpp:45-150`). -/
def run (h : Heap) : List HOp → Outcome Heap
  | [] => .ok h
  | x :: xs => (step h x).bind fun h => run h xs

/-! ## Handles of shared files -/

/-- The handles of one file name: which instance (`shared_instance`, `shared_file.hpp:233`) each points to; the
instance that is registered, with its count (`shared_file.hpp:81-86`, `opened_files`); and the number of instances
made so far. -/
structure Files where
  obj : Nat → Option Nat
  entry : Option (Nat × Nat)
  next : Nat

/-- No handles yet (`shared_file.cpp:66-67`). -/
def Files.empty : Files := ⟨fun _ => none, none, 0⟩

/-- `open`: the constructor, successful (`shared_file.cpp:135-143`); `copy`: supplied by the compiler; `write`:
a flush (`200-216`), successful. -/
inductive FOp where
  | open (o : Nat) | copy (p o : Nat) | write (o : Nat) | destroy (o : Nat)
  deriving DecidableEq, Repr

/-- Is this the instance that is registered?  All others were deleted. (`shared_file.cpp:113-118`.) -/
def Files.registered (f : Files) (i : Nat) : Bool :=
  match f.entry with
  | none => false
  | some (j, _) => j == i

/-- One call.  `RegisterSharedFile` (`shared_file.cpp:73-98`), the destructor (`145-157`), which looks into the
instance before `DeRegisterSharedFile` (`104-121`) finds the entry of that name; its member `error_handler` is
`NoError`. -/
def fstep (f : Files) : FOp → Outcome Files
  | .open o =>
    if (f.obj o).isSome then .ub
    else
      match f.entry with
      | some (i, c) => .ok { f with obj := fun x => if x = o then some i else f.obj x, entry := some (i, c + 1) }
      | none => .ok ⟨fun x => if x = o then some f.next else f.obj x, some (f.next, 1), f.next + 1⟩
  | .copy p o =>
    match f.obj o with
    | none => .ub
    | some i => if (f.obj p).isSome then .ub else .ok { f with obj := fun x => if x = p then some i else f.obj x }
  | .write o =>
    match f.obj o with
    | none => .ub
    | some i => if f.registered i then .ok f else .ub
  | .destroy o =>
    match f.obj o with
    | none => .ub
    | some i =>
      if f.registered i then
        match f.entry with
        | none => .ub
        | some (j, c) =>
          .ok { f with obj := fun x => if x = o then none else f.obj x, entry := if c = 1 then none else some (j, c - 1) }
      else .ub

/-- A history of calls (`shared_file.cpp:135-216`). -/
def frun (f : Files) : List FOp → Outcome Files
  | [] => .ok f
  | x :: xs => (fstep f x).bind fun f => frun f xs

/-! ## Consoles -/

/-- Output consoles over one terminal: what each has in its buffer, and what has reached the terminal
(`console.cpp:28-54`). -/
structure Term where
  buf : Nat → Option (List Char)
  out : List Char

/-- `copy`: supplied by the compiler; the others are the calls of one console. (`console.cpp:28-54`.) -/
inductive TOp where
  | new (o : Nat) | copy (p o : Nat) | call (o : Nat) (c : Console.Op) | destroy (o : Nat)
  deriving DecidableEq, Repr

/-- One call.  The destructor of `OConsole` does not flush (`console.hpp:49`). -/
def tstep (t : Term) : TOp → Outcome Term
  | .new o => if (t.buf o).isSome then .ub else .ok { t with buf := fun x => if x = o then some [] else t.buf x }
  | .copy p o =>
    match t.buf o with
    | none => .ub
    | some b => if (t.buf p).isSome then .ub else .ok { t with buf := fun x => if x = p then some b else t.buf x }
  | .call o c =>
    match t.buf o with
    | none => .ub
    | some b =>
      match Console.step ⟨b, t.out⟩ c with
      | .ok s _ => .ok ⟨fun x => if x = o then some s.buf else t.buf x, s.out⟩
      | .throw _ e => .throw e
      | .ub => .ub
  | .destroy o => if (t.buf o).isSome then .ok { t with buf := fun x => if x = o then none else t.buf x } else .ub

/-- A history of calls (`console.cpp:28-54`). -/
def trun (t : Term) : List TOp → Outcome Term
  | [] => .ok t
  | x :: xs => (tstep t x).bind fun t => trun t xs

end Ecl.Copies
