import Verif.Core.Outcome
import Verif.Core.CInt

/-!
# Model of `ecl::String` (`ecl_devices/src/lib/string.cpp`)
-/
set_option autoImplicit false

namespace Ecl

/-- The device (`string.hpp:196-200`): the allocated block (`none` marks a byte that has never been
written), the recorded `buffer_length`, and the two cursors as offsets into the block. -/
structure StrDev where
  mem : List (Option Char)
  len : Nat
  w : Nat
  r : Nat
  deriving Repr, DecidableEq

namespace StrDev

/-- `String(const char*)`: `string.cpp:27-34`.  `s` is the text before the terminating NUL. -/
def make (s : List Char) : StrDev := ⟨s.map some ++ [none], s.length + 1, s.length, 0⟩

/-- `grow(int)`: `string.cpp:48-58`.  Note that `buffer_length` is not updated.  `no_bytes` is an
`int`; the sum is `unsigned long`.  Allocation always succeeds. -/
def grow (s : StrDev) (k : Int) : Outcome StrDev :=
  let n := u64 (s.w + k + 1)
  if s.w ≤ n ∧ s.w ≤ s.mem.length then
    .ok { s with mem := s.mem.take s.w ++ List.replicate (n - s.w) none }
  else .ub

/-- A store through a pointer into the block. (`string.cpp:125-150`.) -/
def store (mem : List (Option Char)) (i : Nat) (c : Char) : Outcome (List (Option Char)) :=
  if i < mem.length then .ok (mem.set i (some c)) else .ub

/-- `memcpy` of a text into the block. (`string.cpp:48-58`, `141-150`.) -/
def storeAll (mem : List (Option Char)) (i : Nat) : List Char → Outcome (List (Option Char))
  | [] => if i ≤ mem.length then .ok mem else .ub
  | c :: cs => do
    let mem ← store mem i c
    storeAll mem (i + 1) cs

/-- Reading `n` bytes of the block from `i` on; undefined outside the block or when a byte was never
written. (`string.cpp:38-93`.) -/
def load (mem : List (Option Char)) (i : Nat) : Nat → Outcome (List Char)
  | 0 => .ok []
  | n + 1 =>
    match mem[i]? with
    | some (some c) => do
      let cs ← load mem (i + 1) n
      .ok (c :: cs)
    | _ => .ub

/-- `write(char)`: `string.cpp:125-134`.  The comparison is made in `long`; `grow()` has the default
argument 256. -/
def put (s : StrDev) (c : Char) : Outcome StrDev := do
  let s ← (if (s.w : Int) = s.len - 1 then grow s 256 else .ok s)
  let mem ← store s.mem s.w c
  .ok { s with mem := mem, w := s.w + 1 }

/-- `write(const char*, n)`: `string.cpp:141-150`.  `n+256` is converted to `int`.  The result is
the device and the return value. -/
def puts (s : StrDev) (cs : List Char) : Outcome (StrDev × Nat) := do
  let s ← (if (s.w : Int) > s.len - 1 - cs.length then grow s (s32 (cs.length + 256)) else .ok s)
  let mem ← storeAll s.mem s.w cs
  .ok ({ s with mem := mem, w := s.w + cs.length }, cs.length)

/-- `remaining()`: `string.cpp:99-102`. -/
def remaining (s : StrDev) : Nat := u64 ((s.w : Int) - s.r)

/-- `size()`: `string.cpp:160-163`. -/
def size (s : StrDev) : Nat := s.w

/-- `read(char&)`: `string.cpp:63-71`: `none` when nothing is left. -/
def get (s : StrDev) : Outcome (StrDev × Option Char) :=
  if remaining s ≠ 0 then
    match s.mem[s.r]? with
    | some (some c) => .ok ({ s with r := s.r + 1 }, some c)
    | _ => .ub
  else .ok (s, none)

/-- `read(char*, n)`: `string.cpp:78-93`: the bytes delivered. -/
def gets (s : StrDev) (n : Nat) : Outcome (StrDev × List Char) :=
  let rem := remaining s
  if rem > n then do
    let cs ← load s.mem s.r n
    .ok ({ s with r := s.r + n }, cs)
  else if rem ≠ 0 then do
    let cs ← load s.mem s.r rem
    .ok ({ s with r := s.r + rem }, cs)
  else .ok (s, [])

/-- `clear()`: `string.cpp:108-115`.  The new block has one byte, `buffer_length` becomes 0. -/
def clear (_ : StrDev) : StrDev := ⟨[none], 0, 0, 0⟩

/-- `c_str()`: `string.cpp:38-41`: stores the terminator and returns the text a C reader sees. -/
def cstr (s : StrDev) : Outcome (StrDev × List Char) := do
  let mem ← store s.mem s.w '\x00'
  let cs ← load mem 0 s.w
  .ok ({ s with mem := mem }, cs.takeWhile (· ≠ '\x00'))

/-- `str()`: `string.cpp:42-46`. -/
def str (s : StrDev) : Outcome (List Char) := load s.mem 0 s.w

/-- Calls on the device. (`string.cpp:38-163`.) -/
inductive Op where
  | put (c : Char) | puts (cs : List Char) | get | gets (n : Nat) | clear | cstr | str | size
  | remaining
  deriving Repr, DecidableEq

/-- Their results. (`string.cpp:38-163`.) -/
inductive Out where
  | count (n : Nat) | char (c : Option Char) | text (cs : List Char) | unit
  deriving Repr, DecidableEq

/-- One call. (`string.cpp:38-163`.) -/
def step (s : StrDev) : Op → Res StrDev Out
  | .put c => match put s c with
    | .ok s => .ok s (.count 1) | .throw e => .throw s e | .ub => .ub
  | .puts cs => match puts s cs with
    | .ok (s, n) => .ok s (.count n) | .throw e => .throw s e | .ub => .ub
  | .get => match get s with
    | .ok (s, c) => .ok s (.char c) | .throw e => .throw s e | .ub => .ub
  | .gets n => match gets s n with
    | .ok (s, c) => .ok s (.text c) | .throw e => .throw s e | .ub => .ub
  | .clear => .ok (clear s) .unit
  | .cstr => match cstr s with
    | .ok (s, c) => .ok s (.text c) | .throw e => .throw s e | .ub => .ub
  | .str => match str s with
    | .ok c => .ok s (.text c) | .throw e => .throw s e | .ub => .ub
  | .size => .ok s (.count (size s))
  | .remaining => .ok s (.count (remaining s))

end StrDev
end Ecl
