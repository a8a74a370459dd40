import Verif.Model.Array

/-!
# Comma initialisation, guard bytes, array objects on a heap, stencils
-/
set_option autoImplicit false

namespace Ecl
variable {α : Type _}

/-! ## Comma initialisation (`ecl_containers/include/ecl/containers/initialiser.hpp`) -/
namespace Init

/-- The write cursor: `iterator` is an offset into the storage, `cur` is `current_size`
(`initialiser.hpp:74-76, 144-147`). -/
structure Cursor where
  pos : Nat
  cur : Nat

/-- `*iterator = value`: raw write. (`initialiser.hpp:88,95,161,168`.) -/
def put (l : List α) (c : Cursor) (v : α) : Outcome (List α) := Arr.rawSet l c.pos v

/-- Constructor for fixed-size arrays: `initialiser.hpp:83-90` (no check). -/
def startFixed (l : List α) (v : α) : Res (List α) Cursor :=
  match Arr.rawSet l 0 v with
  | .ok l' => .ok l' ⟨1, 1⟩
  | .throw e => .throw l e
  | .ub => .ub

/-- Constructor for dynamic arrays with bound `n`: `initialiser.hpp:154-163`. -/
def startDyn (m : Mode) (n : Nat) (l : List α) (v : α) : Res (List α) Cursor :=
  match assertThrow m (decide (1 ≤ n)) .outOfRange with
  | .ok _ =>
    match Arr.rawSet l 0 v with
    | .ok l' => .ok l' ⟨1, 1⟩
    | .throw e => .throw l e
    | .ub => .ub
  | .throw e => .throw l e
  | .ub => .ub

/-- `operator,`: `initialiser.hpp:91-99, 164-172`. -/
def comma (m : Mode) (n : Nat) (l : List α) (c : Cursor) (v : α) : Res (List α) Cursor :=
  match assertThrow m (decide (c.cur < n)) .outOfRange with
  | .ok _ =>
    match put l c v with
    | .ok l' => .ok l' ⟨c.pos + 1, c.cur + 1⟩
    | .throw e => .throw l e
    | .ub => .ub
  | .throw e => .throw l e
  | .ub => .ub

/-- The remaining `, v, v, …` of an initialisation expression. Each comma is one call of
`initialiser.hpp:91-99` or `164-172`. -/
def commas (m : Mode) (n : Nat) : List α → Cursor → List α → Res (List α) Unit
  | l, _, [] => .ok l ()
  | l, c, v :: vs => (comma m n l c v).bind fun l c => commas m n l c vs

/-- `array << v, vs…` for a fixed-size array: `array_no_mem_check.hpp:177-179`. -/
def initFixed (m : Mode) (l : List α) (v : α) (vs : List α) : Res (List α) Unit :=
  (startFixed l v).bind fun l' c => commas m l.length l' c vs

/-- `array << v, vs…` for a dynamic array: `array_dynamic_no_mem_check.hpp:240-242`. -/
def initDyn (m : Mode) (l : List α) (v : α) (vs : List α) : Res (List α) Unit :=
  (startDyn m l.length l v).bind fun l' c => commas m l.length l' c vs

end Init

/-! ## Guard bytes of the memory-checked arrays -/
namespace Guard

/-- Byte image of a memory-checked array: `under`-guard, padding, elements, padding, `over`-guard
(`array_mem_check.hpp:377-379`; the dynamic variant, `array_dynamic_mem_check.hpp:496-510`, has no
padding).  `p` and `q` are the paddings the compiler inserts for the element alignment. -/
structure Layout where
  p : Nat
  elems : Nat
  q : Nat

/-- Offset of the first element: `buffer` behind `underrun` (`array_mem_check.hpp:377-379`,
`array_dynamic_mem_check.hpp:561-564`). -/
def Layout.elemStart (L : Layout) : Nat := 4 + L.p
/-- Offset of the upper guard `overrun` (`array_mem_check.hpp:377-379`,
`array_dynamic_mem_check.hpp:561-564`). -/
def Layout.overStart (L : Layout) : Nat := 4 + L.p + L.elems + L.q
/-- `magicChar()`: `array_mem_check.hpp:373-376`. -/
def magic : UInt8 := 0xCC

/-- `initialiseMagicSections()`: `array_mem_check.hpp:391-401`,
`array_dynamic_mem_check.hpp:576-586`, on memory with arbitrary contents `junk`. -/
def init (L : Layout) (junk : Nat → UInt8) : Nat → UInt8 := fun a =>
  if a < 4 then magic
  else if L.overStart ≤ a ∧ a < L.overStart + 4 then magic
  else junk a

/-- A byte write at offset `a` of the block. This stands for any store of the user's program; no
lines of /repo perform it. -/
def write (mem : Nat → UInt8) (w : Nat × UInt8) : Nat → UInt8 := fun a =>
  if a = w.1 then w.2 else mem a

/-- The checking loop over four guard bytes. (`array_dynamic_mem_check.hpp:598-602`, `619-623`;
`array_mem_check.hpp:411-438`.) -/
def check (mem : Nat → UInt8) (start : Nat) : Nat → Bool
  | 0 => false
  | k + 1 => if mem start != magic then true else check mem (start + 1) k

/-- `bufferUnderRun()`: `array_mem_check.hpp:430-438`, `array_dynamic_mem_check.hpp:595-605`. -/
def underRun (mem : Nat → UInt8) : Bool := check mem 0 4

/-- `bufferOverRun()`: `array_mem_check.hpp:411-420`, `array_dynamic_mem_check.hpp:615-626`. -/
def overRun (L : Layout) (mem : Nat → UInt8) : Bool := check mem L.overStart 4

/-- `bufferOverFlow()`: `array_mem_check.hpp:448-451`, `array_dynamic_mem_check.hpp:637-640`. -/
def overFlow (L : Layout) (mem : Nat → UInt8) : Bool := overRun L mem || underRun mem

end Guard

/-! ## Dynamic array objects on a heap (`array_dynamic_no_mem_check.hpp`) -/
namespace DynHeap

/-- An array object: `buffer_size` and the `buffer` pointer (`:516-518`). -/
structure Obj where
  size : Nat
  buf : Option Nat
  deriving DecidableEq, Repr

/-- Program state: allocated blocks by address, next fresh address, and the array objects. The
heap stands for `new[]`/`delete[]` as used at `array_dynamic_no_mem_check.hpp:483-501`. -/
structure St (α : Type _) where
  mem : Nat → Option (List α)
  next : Nat
  obj : Nat → Obj

/-- All objects default constructed (`:156`), nothing allocated. -/
def init : St α := ⟨fun _ => none, 0, fun _ => ⟨0, none⟩⟩

/-- Store a block: the effect of `new[]`, `delete[]` and element writes of
`array_dynamic_no_mem_check.hpp:409-501`. -/
def setMem (s : St α) (p : Nat) (v : Option (List α)) : St α :=
  { s with mem := fun a => if a = p then v else s.mem a }

/-- Store the two members `buffer_size`, `buffer` of one object
(`array_dynamic_no_mem_check.hpp:516-518`). -/
def setObj (s : St α) (i : Nat) (o : Obj) : St α :=
  { s with obj := fun a => if a = i then o else s.obj a }

/-- `delete[] p`: undefined unless `p` is a live block. (`array_dynamic_no_mem_check.hpp:221, 485,
497`.) -/
def delete (s : St α) (p : Nat) : Outcome (St α) :=
  match s.mem p with
  | some _ => .ok (setMem s p none)
  | none => .ub

/-- `if ( buffer != NULL ) delete[] buffer;` (`:220-222, 484-486, 496-497`). -/
def release (s : St α) (i : Nat) : Outcome (St α) :=
  match (s.obj i).buf with
  | some p => delete s p
  | none => .ok s

/-- `resize(n)`: `:483-489`.  The new elements are indeterminate. -/
def resize (s : St α) (i n : Nat) (junk : Nat → α) : Outcome (St α) := do
  let s ← release s i
  let p := s.next
  let s := { setMem s p (some ((List.range n).map junk)) with next := p + 1 }
  .ok (setObj s i ⟨n, some p⟩)

/-- `clear()`: `:495-501`. -/
def clear (s : St α) (i : Nat) : Outcome (St α) := do
  let s ← release s i
  .ok (setObj s i ⟨0, none⟩)

/-- The block a pointer refers to: undefined if it is null or freed. (Uses of `buffer` at
`array_dynamic_no_mem_check.hpp:262-295, 409-465`.) -/
def deref (s : St α) (o : Obj) : Outcome (List α) :=
  match o.buf with
  | some p => match s.mem p with
    | some l => .ok l
    | none => .ub
  | none => .ub

/-- `std::copy(a.begin(), a.end(), begin())` from object `j` to object `i` (`:182, 249`): reads
`size j` elements of `j`'s buffer, writes them to the front of `i`'s buffer.  `begin()`/`end()`
assert a non-null buffer in debug builds (`:262-295`). -/
def copy (m : Mode) (s : St α) (i j : Nat) : Outcome (St α) := do
  assertThrow m (s.obj j).buf.isSome .outOfRange
  let src ← deref s (s.obj j)
  assertThrow m (s.obj i).buf.isSome .outOfRange
  let dst ← deref s (s.obj i)
  let n := (s.obj j).size
  if n ≤ src.length ∧ n ≤ dst.length then
    match (s.obj i).buf with
    | some p => .ok (setMem s p (some (src.take n ++ dst.drop n)))
    | none => .ub
  else .ub

/-- `operator=`: `:244-251`. -/
def assign (m : Mode) (s : St α) (i j : Nat) (junk : Nat → α) : Outcome (St α) :=
  if (s.obj j).size = 0 then clear s i
  else do
    let s ← resize s i (s.obj j).size junk
    copy m s i j

/-- Copy construction of object `i` (currently not alive, i.e. null) from `j`: `:175-184`. -/
def copyCtor (m : Mode) (s : St α) (i j : Nat) (junk : Nat → α) : Outcome (St α) :=
  let s := setObj s i ⟨0, none⟩
  if (s.obj j).size = 0 then .ok s
  else do
    let s ← resize s i (s.obj j).size junk
    copy m s i j

/-- `a[k] = v`: `:409-412`. -/
def set (m : Mode) (s : St α) (i k : Nat) (v : α) : Outcome (St α) := do
  assertThrow m (decide (k < (s.obj i).size)) .outOfRange
  let l ← deref s (s.obj i)
  let l' ← Arr.rawSet l k v
  match (s.obj i).buf with
  | some p => .ok (setMem s p (some l'))
  | none => .ub

/-- `~Array()`: `:219-223`; afterwards the object is represented as null (it no longer exists). -/
def destroy (s : St α) (i : Nat) : Outcome (St α) := clear s i

/-- Calls on a family of array objects, named by numbers.
(`array_dynamic_no_mem_check.hpp:175-184, 244-251, 409-412, 483-501`.) -/
inductive Op (α : Type _) where
  | resize (i n : Nat) (junk : Nat → α)
  | clear (i : Nat)
  | assign (i j : Nat) (junk : Nat → α)
  | copyCtor (i j : Nat) (junk : Nat → α)
  | set (i k : Nat) (v : α)

/-- One call: dispatch to the functions above (`array_dynamic_no_mem_check.hpp:175-184, 244-251,
409-412, 483-501`). -/
def step (m : Mode) (s : St α) : Op α → Outcome (St α)
  | .resize i n j => resize s i n j
  | .clear i => clear s i
  | .assign i j junk => assign m s i j junk
  | .copyCtor i j junk => copyCtor m s i j junk
  | .set i k v => set m s i k v

/-- What a user sees of object `i`: its elements `a[0] … a[size-1]`. -/
def contents (s : St α) (i : Nat) : List α :=
  match (s.obj i).buf with
  | some p => (s.mem p).getD []
  | none => []

end DynHeap

/-! ## Stencils (`ecl_containers/include/ecl/containers/stencil/stencil.hpp`) -/

/-- A stencil on an array: `b_iter` and `e_iter` as offsets from `array.begin()`
(`stencil.hpp:500-502`).  Forming a pointer outside the array is modelled as harmless; only
dereferencing it is undefined. -/
structure Stencil where
  b : Int
  e : Int
  deriving DecidableEq, Repr

namespace Stencil

/-- Range check of the constructors: `stencil.hpp:119-120, 144-145`; the pointer specialisations
check the upper end only (`specialisations.hpp:78-79, 101-102`), which is the same for offsets
that start inside the array. -/
def inRange (len : Nat) (i : Int) : Bool := decide (0 ≤ i) && decide (i ≤ len)

/-- `Stencil(array, begin_iter, end_iter)`: `stencil.hpp:113-121`.  Nothing checks `b ≤ e`. -/
def mkIter (m : Mode) (len : Nat) (b e : Int) : Outcome Stencil := do
  assertThrow m (inRange len b) .outOfRange
  assertThrow m (inRange len e) .outOfRange
  .ok ⟨b, e⟩

/-- `Stencil(array, start_index, n)`: `stencil.hpp:138-146`. -/
def mkIdx (m : Mode) (len : Nat) (start n : Nat) : Outcome Stencil :=
  mkIter m len start (start + n)

/-- `Array::stencil(start_index, n)`: `array_no_mem_check.hpp:263-267`,
`array_dynamic_no_mem_check.hpp:395-399`; `start_index+n` is `unsigned int` arithmetic. -/
def ofArray (m : Mode) (len : Nat) (start n : Nat) : Outcome Stencil := do
  assertThrow m (decide (start < len)) .outOfRange
  assertThrow m (decide ((start + n) % 4294967296 ≤ len)) .outOfRange
  mkIter m len start (start + n)

/-- `Stencil::stencil(start_index, n)`: `stencil.hpp:163-168`. -/
def sub (m : Mode) (len : Nat) (s : Stencil) (start n : Nat) : Outcome Stencil := do
  assertThrow m (decide (s.b + start < len)) .outOfRange
  assertThrow m (decide (s.b + start + n ≤ len)) .outOfRange
  mkIter m len (s.b + start) (s.b + start + n)

/-- `resettle`: `stencil.hpp:181-188`; the iterators are overwritten before the checks. -/
def resettle (m : Mode) (len : Nat) (_s : Stencil) (start n : Nat) : Res Stencil Unit :=
  let s' : Stencil := ⟨start, start + n⟩
  match assertThrow m (inRange len s'.b) .outOfRange with
  | .ok _ =>
    match assertThrow m (inRange len s'.e) .outOfRange with
    | .ok _ => .ok s' ()
    | .throw e => .throw s' e
    | .ub => .ub
  | .throw e => .throw s' e
  | .ub => .ub

/-- Dereference of an offset. (`*(b_iter+i)`, `*b_iter`, `*(e_iter-1)`: `stencil.hpp:252, 353,
373, 402, 441`.) -/
def deref {α : Type _} (l : List α) (i : Int) : Outcome α :=
  if 0 ≤ i then Arr.rawGet l i.toNat else .ub

/-- Write through an offset. (`stencil.hpp:252, 402`.) -/
def store {α : Type _} (l : List α) (i : Int) (v : α) : Outcome (List α) :=
  if 0 ≤ i then Arr.rawSet l i.toNat v else .ub

/-- `operator[]` read: `stencil.hpp:398-420`. -/
def get {α : Type _} (m : Mode) (l : List α) (s : Stencil) (i : Nat) : Outcome α := do
  assertThrow m (decide (0 ≤ s.b + i)) .outOfRange
  assertThrow m (decide (s.b + i ≤ l.length)) .outOfRange
  deref l (s.b + i)

/-- `operator[]` write: `stencil.hpp:398-403`. -/
def set {α : Type _} (m : Mode) (l : List α) (s : Stencil) (i : Nat) (v : α) : Outcome (List α) := do
  assertThrow m (decide (0 ≤ s.b + i)) .outOfRange
  assertThrow m (decide (s.b + i ≤ l.length)) .outOfRange
  store l (s.b + i) v

/-- `at(i)`: `stencil.hpp:431-466`. -/
def at' {α : Type _} (l : List α) (s : Stencil) (i : Nat) : Outcome α :=
  if s.b + i ≤ 0 then .throw .outOfRange
  else if s.b + i ≥ l.length then .throw .outOfRange
  else deref l (s.b + i)

/-- `front()`: `stencil.hpp:350-364`. -/
def front {α : Type _} (m : Mode) (l : List α) (s : Stencil) : Outcome α := do
  assertThrow m (decide (s.b ≤ l.length)) .outOfRange
  deref l s.b

/-- `back()`: `stencil.hpp:370-384`. -/
def back {α : Type _} (m : Mode) (l : List α) (s : Stencil) : Outcome α := do
  assertThrow m (decide (s.e ≤ l.length)) .outOfRange
  deref l (s.e - 1)

/-- `size()`: `stencil.hpp:476-477` (conversion of the difference to `size_t`). -/
def size (s : Stencil) : Nat := u64 (s.e - s.b)

/-- The copying loop of `operator=` between stencils of different arrays: `stencil.hpp:250-253`. -/
def copyLoop {α : Type _} (src : List α) (s t : Stencil) : Nat → Nat → List α → Outcome (List α)
  | _, 0, dst => .ok dst
  | i, k + 1, dst => do
    let v ← deref src (s.b + i)
    let dst ← store dst (t.b + i) v
    copyLoop src s t (i + 1) k dst

/-- `operator=` between stencils `t` (target, on `dst`) and `s` (source, on `src`) of different
arrays: `stencil.hpp:248-254`. -/
def assignOther {α : Type _} (m : Mode) (dst : List α) (t : Stencil) (src : List α) (s : Stencil) :
    Outcome (List α) := do
  assertThrow m (decide (s.size ≤ t.size)) .outOfRange
  copyLoop src s t 0 s.size dst

end Stencil
end Ecl
