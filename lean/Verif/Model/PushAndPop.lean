import Verif.Model.Array

/-!
# Model of `ecl::PushAndPop`
(`ecl_containers/include/ecl/containers/push_and_pop/push_and_pop_fixed.hpp`,
`push_and_pop_dynamic.hpp`).  The member functions of the two variants are textually the same;
they differ in the constructors and in `resize`, which only the dynamic one has.
-/
set_option autoImplicit false

namespace Ecl
variable {α : Type _}

/-- State (`push_and_pop_fixed.hpp:180-184`, `push_and_pop_dynamic.hpp:282-285`): the array,
`unsigned int size_fifo`, `int leader`, `int follower`. -/
structure PushAndPop (α : Type _) where
  data : List α
  size : Nat
  leader : Int
  follower : Int
  deriving Repr, DecidableEq

namespace PushAndPop

/-- Default constructor, fixed size: `push_and_pop_fixed.hpp:81-87`; `size_fifo(Size+1)` converts
to `unsigned int`. -/
def mkFixed (n : Nat) (junk : Nat → α) : PushAndPop α :=
  ⟨(List.range (n + 1)).map junk, (n + 1) % 4294967296, 0, 0⟩

/-- Default constructor, dynamic size: `push_and_pop_dynamic.hpp:90`. -/
def mkDynDefault : PushAndPop α := ⟨[], 0, 0, 0⟩

/-- `PushAndPop(length)`, dynamic size, `length < 2^32`: `push_and_pop_dynamic.hpp:92-97`.
`length+1` is `unsigned int` arithmetic. -/
def mkDyn (m : Mode) (n : Nat) (junk : Nat → α) : Outcome (PushAndPop α) := do
  let sz := (n + 1) % 4294967296
  assertThrow m (0 < sz) .outOfRange
  .ok ⟨(List.range sz).map junk, sz, 0, 0⟩

/-- `x %= size_fifo` for `int x`: conversion to `unsigned`, remainder, conversion back;
undefined for `size_fifo = 0`. -/
def modAssign (x : Int) (size : Nat) : Outcome Int :=
  if size = 0 then .ub else .ok (s32 (u32 x % size))

/-- Post-increment of an `int`: undefined on overflow. (`leader++`, `follower++` at
`push_and_pop_fixed.hpp:127-150`.) -/
def incr (x : Int) : Outcome Int := if x = intMax then .ub else .ok (x + 1)

/-- `push_back`: `push_and_pop_fixed.hpp:127-137`, `push_and_pop_dynamic.hpp:224-234`. The
increment of `leader` happens before the bounds check is entered. -/
def pushBack (m : Mode) (s : PushAndPop α) (d : α) : Res (PushAndPop α) Unit :=
  match incr s.leader with
  | .ok l1 =>
    match Arr.set m s.data (u64 s.leader) d with
    | .ok data' =>
      match modAssign l1 s.size with
      | .ok l2 =>
        if l2 = s.follower then
          match incr s.follower with
          | .ok f1 =>
            match modAssign f1 s.size with
            | .ok f2 => .ok { s with data := data', leader := l2, follower := f2 } ()
            | _ => .ub
          | _ => .ub
        else .ok { s with data := data', leader := l2 } ()
      | _ => .ub
    | .throw e => .throw { s with leader := l1 } e
    | .ub => .ub
  | _ => .ub

/-- `pop_front`: `push_and_pop_fixed.hpp:139-145`, `push_and_pop_dynamic.hpp:236-242`. -/
def popFront (m : Mode) (s : PushAndPop α) : Res (PushAndPop α) α :=
  match assertThrow m (s.follower ≠ s.leader) .outOfRange with
  | .ok _ =>
    match incr s.follower with
    | .ok f1 =>
      match Arr.get m s.data (u64 s.follower) with
      | .ok v =>
        match modAssign f1 s.size with
        | .ok f2 => .ok { s with follower := f2 } v
        | _ => .ub
      | .throw e => .throw { s with follower := f1 } e
      | .ub => .ub
    | _ => .ub
  | .throw e => .throw s e
  | .ub => .ub

/-- `operator[](int)`: `push_and_pop_fixed.hpp:101-109`, `push_and_pop_dynamic.hpp:198-206`.
`follower+idx` is `int` arithmetic, then converted to `unsigned` by `% size_fifo`. -/
def get (m : Mode) (s : PushAndPop α) (i : Int) : Res (PushAndPop α) α :=
  if ¬ InInt (s.follower + i) then .ub
  else if s.size = 0 then .ub
  else match Arr.get m s.data (u32 (s.follower + i) % s.size) with
    | .ok v => .ok s v
    | .throw e => .throw s e
    | .ub => .ub

/-- The loop of `fill`: `push_and_pop_fixed.hpp:149`, `push_and_pop_dynamic.hpp:246`. -/
def fillLoop (m : Mode) (v : α) : Nat → Nat → List α → Outcome (List α)
  | _, 0, l => .ok l
  | i, k + 1, l =>
    match Arr.set m l i v with
    | .ok l' => fillLoop m v (i + 1) k l'
    | .throw e => .throw e
    | .ub => .ub

/-- `fill`: `push_and_pop_fixed.hpp:147-150`, `push_and_pop_dynamic.hpp:244-247`.  Overwrites
every cell, keeps the indices.  (State after a throwing loop simplified to the unmodified one.) -/
def fill (m : Mode) (s : PushAndPop α) (v : α) : Res (PushAndPop α) Unit :=
  match fillLoop m v 0 s.size s.data with
  | .ok l => .ok { s with data := l } ()
  | .throw e => .throw s e
  | .ub => .ub

/-- `size()`: `push_and_pop_fixed.hpp:162-167`, `push_and_pop_dynamic.hpp:268-273`. -/
def sizeOf (s : PushAndPop α) : Nat :=
  if s.leader > s.follower then u32 (s.leader - s.follower)
  else if s.leader < s.follower then u32 ((s.size : Int) - s.follower + s.leader)
  else 0

/-- `asize()`: `push_and_pop_fixed.hpp:157-160`, `push_and_pop_dynamic.hpp:263-266`. -/
def asize (s : PushAndPop α) : Nat := s.size

/-- `clear()`: `push_and_pop_fixed.hpp:169-173`, `push_and_pop_dynamic.hpp:275-279`. -/
def clear (s : PushAndPop α) : PushAndPop α := { s with leader := 0, follower := 0 }

/-- `resize(length)`, dynamic only: `push_and_pop_dynamic.hpp:249-254`. -/
def resize (m : Mode) (s : PushAndPop α) (n : Nat) (junk : Nat → α) : Res (PushAndPop α) Unit :=
  let sz := (n + 1) % 4294967296
  let s1 := { s with size := sz }
  match assertThrow m (0 < sz) .outOfRange with
  | .ok _ => .ok { s1 with data := (List.range sz).map junk } ()
  | .throw e => .throw s1 e
  | .ub => .ub

/-- Public calls. (`push_and_pop_fixed.hpp:81-173`, `push_and_pop_dynamic.hpp:92-279`.) -/
inductive Op (α : Type _) where
  | push (d : α)
  | pop
  | get (i : Int)
  | fill (v : α)
  | size
  | clear
  | resize (n : Nat) (junk : Nat → α)

/-- Observed results. (`push_and_pop_fixed.hpp:81-173`, `push_and_pop_dynamic.hpp:92-279`.) -/
inductive Out (α : Type _) where
  | unit
  | val (a : α)
  | num (n : Nat)
  deriving DecidableEq, Repr

/-- Dispatch of one public call. (`push_and_pop_fixed.hpp:81-173`,
`push_and_pop_dynamic.hpp:92-279`.) -/
def step (m : Mode) (s : PushAndPop α) : Op α → Res (PushAndPop α) (Out α)
  | .push d => (pushBack m s d).bind fun s _ => .ok s .unit
  | .pop => (popFront m s).bind fun s a => .ok s (.val a)
  | .get i => (get m s i).bind fun s a => .ok s (.val a)
  | .fill v => (fill m s v).bind fun s _ => .ok s .unit
  | .size => .ok s (.num (sizeOf s))
  | .clear => .ok (clear s) .unit
  | .resize n j => (resize m s n j).bind fun s _ => .ok s .unit

end PushAndPop
end Ecl
