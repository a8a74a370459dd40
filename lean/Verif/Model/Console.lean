import Verif.Core.Outcome
import Verif.Core.CInt

/-!
# Model of the character buffers and the console devices

`ecl_devices/src/lib/detail/character_buffer.cpp`, `ecl_devices/src/lib/console.cpp`.
-/
set_option autoImplicit false

namespace Ecl

namespace Buf
variable {α : Type _}

/-- A `CharBuffer` or `CharStringBuffer` is represented by the bytes below its fill marker
(`character_buffer.hpp:60-65, 102-107`); `cap` is `buffer_size`, 4096 resp. 4095.  Bytes above the
marker are never read, except the one overwritten by `c_str()`. -/
abbrev Buffer (α : Type _) := List α

/-- `full()`: `character_buffer.cpp:26-32, 68-74`. -/
def full (cap : Nat) (b : Buffer α) : Bool := b.length == cap

/-- `append(const char&)`: `character_buffer.cpp:34-43, 76-85`.  A marker above `buffer_size` would
write outside the array. -/
def append1 (cap : Nat) (b : Buffer α) (c : α) : Outcome (Buffer α × Nat) :=
  if full cap b then .ok (b, 0)
  else if b.length < cap then .ok (b ++ [c], 1)
  else .ub

/-- `append(const char*, n)`: `character_buffer.cpp:45-57, 87-99`. -/
def append (cap : Nat) (b : Buffer α) (s : List α) : Outcome (Buffer α × Nat) :=
  if cap < b.length then .ub
  else
    let remaining := cap - b.length
    if s.length ≤ remaining then .ok (b ++ s, s.length)
    else .ok (b ++ s.take remaining, remaining)

end Buf

/-- An output console: the buffered bytes and what has reached the terminal. (`OConsole`,
`EConsole`: the member `buffer` of `console.hpp`, `console.cpp:28-86`.) -/
structure Console where
  buf : List Char
  out : List Char
  deriving Repr, DecidableEq

namespace Console

/-- `CharStringBuffer::buffer_size` (`character_buffer.hpp:84`). -/
def cap : Nat := 4095

/-- `flush()`: `console.cpp:49-54, 81-86`.  `fputs` writes up to the first NUL.  The terminal accepts
everything: failures of `fputs`/`fflush` are not modelled. -/
def flush (s : Console) : Console := ⟨[], s.out ++ s.buf.takeWhile (· ≠ '\x00')⟩

/-- `write(const char&)`: `console.cpp:28-35, 60-67`. -/
def put (s : Console) (c : Char) : Outcome (Console × Nat) := do
  let r ← Buf.append1 cap s.buf c
  let s := { s with buf := r.1 }
  .ok (if Buf.full cap s.buf then flush s else s, r.2)

/-- The loop of `write(const char*, n)`: `console.cpp:40-45, 72-77`, on the bytes still to be written.
Every iteration takes a byte or empties a full buffer; the fuel bounds their number. -/
def loop : Nat → Console → List Char → Outcome Console
  | _, s, [] => .ok s
  | 0, _, _ :: _ => .ub
  | f + 1, s, c :: cs => do
    let r ← Buf.append cap s.buf (c :: cs)
    let s := { s with buf := r.1 }
    loop f (if Buf.full cap s.buf then flush s else s) ((c :: cs).drop r.2)

/-- `write(const char*, n)`: `console.cpp:37-47, 69-79`.  `no_written` is an `unsigned int`, so for
`n ≥ 2^32` the loop does not end (represented by `ub`). -/
def puts (s : Console) (cs : List Char) : Outcome (Console × Nat) :=
  if cs.length < 4294967296 then do
    let s ← loop (2 * cs.length + 1) s cs
    .ok (s, cs.length)
  else .ub

/-- The calls of `console.cpp:28-54` and `60-86`. -/
inductive Op where
  | put (c : Char) | puts (cs : List Char) | flush
  deriving Repr, DecidableEq

/-- One call; the result is the return value (0 for `flush`). -/
def step (s : Console) : Op → Res Console Nat
  | .put c => match put s c with
    | .ok (s, n) => .ok s n | .throw e => .throw s e | .ub => .ub
  | .puts cs => match puts s cs with
    | .ok (s, n) => .ok s n | .throw e => .throw s e | .ub => .ub
  | .flush => .ok (flush s) 0

/-- `IConsole::read(char&)`: `console.cpp:92-104`.  `input` are the bytes (0..255) still to come on
standard input; `fgetc` gives -1 at its end.  The byte is converted to (signed) `char` before the
comparison with `EOF`. Returns the remaining input, the character stored, and the return value. -/
def readChar (m : Mode) (input : List Nat) : Outcome (List Nat × Int × Nat) :=
  let g : Int := match input with | [] => -1 | b :: _ => b
  let c : Int := if g % 256 < 128 then g % 256 else g % 256 - 256
  if c = -1 then
    match m with
    | .debug => .throw .readError
    | .release => .ok (input.tail, c, 0)
  else .ok (input.tail, c, 1)

/-- What `fgets(s,n,stdin)` stores, before the terminating NUL: at most `n-1` bytes, ending after a
newline (10). -/
def fgetsBytes : Nat → List Nat → List Nat
  | 0, _ => []
  | _, [] => []
  | k + 1, b :: bs => if b = 10 then [10] else b :: fgetsBytes k bs

/-- `IConsole::read(char*, n)`: `console.cpp:106-121`, for `2 ≤ n`: the remaining input, the bytes
stored, and the return value `strlen(s)`.  `fgets` gives `NULL` at the end of the input. -/
def readLine (m : Mode) (input : List Nat) (n : Nat) : Outcome (List Nat × List Nat × Nat) :=
  if input = [] then
    match m with
    | .debug => .throw .readError
    | .release => .ok ([], [], 0)
  else
    let bs := fgetsBytes (n - 1) input
    .ok (input.drop bs.length, bs, (bs.takeWhile (· ≠ 0)).length)

end Console
end Ecl
