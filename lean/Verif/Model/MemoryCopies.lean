import Verif.Core.Outcome

/-!
# Model of copies of shared memory handles

`SharedMemory` declares no copy constructor; the one the compiler supplies copies member by member, the address of the mapping
and the flag of the manager included.  (Its member `shared_memory_size` is constant, so that there is no assignment.)  One
process is modelled, with any number of handles and names; other processes appear by what they store in and read from what a
name stands for.  Simplifications: all system calls succeed and constructors are not interrupted (both are in
`SharedMemory.lean`); all handles store the same type, whose contents are one number, so that a mapping is one address.
-/
set_option autoImplicit false

namespace Ecl.Mapped

/-- A `SharedMemory` object (`ecl_ipc/include/ecl/ipc/shared_memory_pos.hpp:117-118`, `151-152`): `addr`: `storage`;
`manager`: `shared_memory_manager`. -/
structure Handle where
  name : Nat
  addr : Nat
  manager : Bool
  deriving DecidableEq, Repr

/-- The handles, the mappings of the process (address and memory object), what the names stand for, the contents of the
memory objects and the number of them created.  (The system behind `shared_memory_pos.hpp:176-246`.) -/
structure World where
  handle : Nat → Option Handle
  maps : List (Nat × Nat)
  name : Nat → Option Nat
  data : Nat → Nat
  next : Nat

/-- Before the first constructor (`shared_memory_pos.hpp:171`). -/
def World.empty : World := ⟨fun _ => none, [], fun _ => none, fun _ => 0, 0⟩

/-- Calls: `make k n`: the constructor (`shared_memory_pos.hpp:171-230`); `copy j k`: supplied by the compiler; `destroy`
(`237-246`); `write`, `read`: through `data()` (`147`); `peer`, `look`: another process, which opens the name just for that,
stores or reads. -/
inductive Op where
  | make (k n : Nat) | copy (j k : Nat) | destroy (k : Nat) | write (k v : Nat) | read (k : Nat)
  | peer (n v : Nat) | look (n : Nat)
  deriving DecidableEq, Repr

/-- Change one entry. (Any of the calls, `shared_memory_pos.hpp:171-246`.) -/
def upd {α : Type} (f : Nat → α) (k : Nat) (v : α) : Nat → α := fun x => if x = k then v else f x

/-- `munmap` (`shared_memory_pos.hpp:240`): an address without a mapping is not an error. -/
def unmap (l : List (Nat × Nat)) (a : Nat) : List (Nat × Nat) := l.filter fun p => p.1 != a

/-- One call and what it reads.  `pick`: the address the system chooses for a mapping, given those in use.  The contents of new
memory are set to `Storage()` (`shared_memory_pos.hpp:227-229`).  Touching an address without a mapping is undefined, and so are
calls on objects that do not exist and constructors for objects that do. -/
def step (pick : List Nat → Nat) (w : World) : Op → Outcome (World × Option Nat)
  | .make k n =>
    if (w.handle k).isSome then .ub
    else
      let a := pick (w.maps.map (·.1))
      match w.name n with
      | some o => .ok ({ w with handle := upd w.handle k (some ⟨n, a, false⟩), maps := (a, o) :: w.maps }, none)
      | none =>
        .ok (⟨upd w.handle k (some ⟨n, a, true⟩), (a, w.next) :: w.maps, upd w.name n (some w.next), upd w.data w.next 0,
          w.next + 1⟩, none)
  | .copy j k =>
    match w.handle k with
    | none => .ub
    | some h => if (w.handle j).isSome then .ub else .ok ({ w with handle := upd w.handle j (some h) }, none)
  | .destroy k =>
    match w.handle k with
    | none => .ub
    | some h =>
      .ok ({ w with
        handle := upd w.handle k none
        maps := unmap w.maps h.addr
        name := if h.manager then upd w.name h.name none else w.name }, none)
  | .write k v =>
    match w.handle k with
    | none => .ub
    | some h =>
      match w.maps.lookup h.addr with
      | none => .ub
      | some o => .ok ({ w with data := upd w.data o v }, none)
  | .read k =>
    match w.handle k with
    | none => .ub
    | some h =>
      match w.maps.lookup h.addr with
      | none => .ub
      | some o => .ok (w, some (w.data o))
  | .peer n v =>
    match w.name n with
    | none => .ok (w, none)
    | some o => .ok ({ w with data := upd w.data o v }, none)
  | .look n => .ok (w, (w.name n).map w.data)

/-- A history of calls and what they read. (Any uses of `shared_memory_pos.hpp:94-246`.) -/
def run (pick : List Nat → Nat) (w : World) : List Op → Outcome (World × List (Option Nat))
  | [] => .ok (w, [])
  | x :: xs =>
    match step pick w x with
    | .ub => .ub
    | .throw e => .throw e
    | .ok (w', r) =>
      match run pick w' xs with
      | .ub => .ub
      | .throw e => .throw e
      | .ok (w'', rs) => .ok (w'', r :: rs)

end Ecl.Mapped
