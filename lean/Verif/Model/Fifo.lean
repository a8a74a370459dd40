import Verif.Model.Array

/-!
# Model of `ecl::FiFo` (`ecl_containers/include/ecl/containers/fifo.hpp`)
-/
set_option autoImplicit false

namespace Ecl
variable {α : Type _}

/-- State of a `FiFo` (`fifo.hpp:173-176`): the array, `size_fifo` and `running_index`, the
latter two `unsigned int`. -/
structure Fifo (α : Type _) where
  data : List α
  size : Nat
  idx : Nat
  deriving Repr, DecidableEq

namespace Fifo

/-- `FiFo(length)`: `fifo.hpp:89-96`.  The fresh elements hold indeterminate values `junk`. -/
def mk0 (n : Nat) (junk : Nat → α) : Fifo α := ⟨(List.range n).map junk, n, 0⟩

/-- `FiFo(length, value)`: `fifo.hpp:103-110`; `Array::Constant` is
`array_dynamic_no_mem_check.hpp:611-614`. -/
def mkFill (n : Nat) (v : α) : Fifo α := ⟨List.replicate n v, n, 0⟩

/-- `operator[](int idx)`: `fifo.hpp:122-134`.  `running_index+idx` is `unsigned` arithmetic,
`% size_fifo` is undefined for `size_fifo = 0`, the array access is `Array::operator[]`. -/
def get (m : Mode) (s : Fifo α) (i : Int) : Res (Fifo α) α :=
  if s.size = 0 then .ub
  else match Arr.get m s.data (u32 (s.idx + i) % s.size) with
    | .ok a => .ok s a
    | .throw e => .throw s e
    | .ub => .ub

/-- `push_back`: `fifo.hpp:143-146`.  The post-increment takes effect before the bounds check of
`Array::operator[]` is entered, so a throw leaves the index advanced. -/
def pushBack (m : Mode) (s : Fifo α) (d : α) : Res (Fifo α) Unit :=
  let i := s.idx
  let s1 := { s with idx := (i + 1) % 4294967296 }
  match Arr.set m s.data i d with
  | .ub => .ub
  | .throw e => .throw s1 e
  | .ok data' =>
    if s.size = 0 then .ub
    else .ok { s1 with data := data', idx := s1.idx % s.size } ()

/-- The loop of `fill`: `fifo.hpp:153`, from index `i` for `k` more iterations. -/
def fillLoop (m : Mode) (v : α) : Nat → Nat → List α → Outcome (List α)
  | _, 0, l => .ok l
  | i, k + 1, l =>
    match Arr.set m l i v with
    | .ok l' => fillLoop m v (i + 1) k l'
    | .throw e => .throw e
    | .ub => .ub

/-- `fill`: `fifo.hpp:152-154`.  (If the loop throws, the elements already written keep the new
value; the state in that case is simplified to the unmodified one.  It cannot happen in a state
where `size` equals the array length.) -/
def fill (m : Mode) (s : Fifo α) (v : α) : Res (Fifo α) Unit :=
  match fillLoop m v 0 s.size s.data with
  | .ok l => .ok { s with data := l } ()
  | .throw e => .throw s e
  | .ub => .ub

/-- `resize`: `fifo.hpp:167-171`.  `size_fifo` is overwritten before the check; the array is
reallocated (`array_dynamic_no_mem_check.hpp:483-489`), its elements indeterminate; the running
index is kept. -/
def resize (m : Mode) (s : Fifo α) (n : Nat) (junk : Nat → α) : Res (Fifo α) Unit :=
  let s1 := { s with size := n }
  match assertThrow m (0 < n) .outOfRange with
  | .ok _ => .ok { s1 with data := (List.range n).map junk } ()
  | .throw e => .throw s1 e
  | .ub => .ub

/-- Public calls on a `FiFo`. (`fifo.hpp:40-181`.) -/
inductive Op (α : Type _) where
  | push (d : α)
  | get (i : Int)
  | fill (v : α)
  | resize (n : Nat) (junk : Nat → α)
  | getIdx

/-- Observed result of a call. (`fifo.hpp:40-181`.) -/
inductive Out (α : Type _) where
  | unit
  | val (a : α)
  | idx (n : Nat)
  deriving DecidableEq, Repr

/-- Dispatch of one public call (`get_idx`: `fifo.hpp:160`). -/
def step (m : Mode) (s : Fifo α) : Op α → Res (Fifo α) (Out α)
  | .push d => (pushBack m s d).bind fun s _ => .ok s .unit
  | .get i => (get m s i).bind fun s a => .ok s (.val a)
  | .fill v => (fill m s v).bind fun s _ => .ok s .unit
  | .resize n j => (resize m s n j).bind fun s _ => .ok s .unit
  | .getIdx => .ok s (.idx s.idx)

end Fifo
end Ecl
