import Verif.Model.Console

/-!
# The output consoles on a terminal that may refuse (`ecl_devices/src/lib/console.cpp`)

`OConsole` and `EConsole` as in `Model/Console.lean`, now with failures of the standard stream, with the `unsigned int`
counter of `write` and with the destructor.
-/
set_option autoImplicit false

namespace Ecl.ConsoleFailure

/-- What `fputs` followed by `fflush` does (`console.cpp:50-52, 82-84`): `none`, everything reaches the terminal and
`fflush` returns 0; `some k`, at most `k` bytes reach it and `fflush` fails.  Simplification: bytes that the C library
keeps after a failure and delivers later count as lost. -/
abbrev Answer := Option Nat

/-- The member `buffer` (`console.hpp:105, 183`) as the bytes below its fill marker, what has reached the terminal, and
how often the stream was flushed: the `i`-th flush meets the `i`-th answer of the terminal.  `error_handler`
(`console.hpp:106, 184`) is `NoError` from the constructor on; no function changes it. -/
structure St where
  buf : List Char
  out : List Char
  asked : Nat
  deriving Repr, DecidableEq

/-- How a call ends. -/
inductive Ret where
  | ok (s : St) (n : Nat)
  | throw (s : St) (e : Flag)
  | endless
  deriving Repr, DecidableEq

/-- `flush()` (`console.cpp:49-54, 81-86`): the buffer is empty before the result of `fflush` is looked at. -/
def flush (m : Mode) (term : Nat → Answer) (s : St) : Ret :=
  let text := s.buf.takeWhile (· ≠ '\x00')
  match term s.asked, m with
  | none, _ => .ok ⟨[], s.out ++ text, s.asked + 1⟩ 0
  | some k, .debug => .throw ⟨[], s.out ++ text.take k, s.asked + 1⟩ .writeError
  | some k, .release => .ok ⟨[], s.out ++ text.take k, s.asked + 1⟩ 0

/-- `if ( buffer.full() ) { flush(); }` and then the value `n` (`console.cpp:31-34, 42-44, 63-66, 74-76`). -/
def flushFull (m : Mode) (term : Nat → Answer) (s : St) (n : Nat) : Ret :=
  if Buf.full Console.cap s.buf then
    match flush m term s with
    | .ok s _ => .ok s n
    | r => r
  else .ok s n

/-- `write(const char&)` (`console.cpp:28-35, 60-67`).  A fill marker beyond the buffer does not occur; it is
represented by a call that does not end. -/
def put (m : Mode) (term : Nat → Answer) (s : St) (c : Char) : Ret :=
  match Buf.append1 Console.cap s.buf c with
  | .ok (b, n) => flushFull m term { s with buf := b } n
  | _ => .endless

/-- One pass of the loop of `write(const char*, n)` (`console.cpp:41-44, 73-76`); the value is the new `no_written`,
an `unsigned int` of 32 bits. -/
def pass (m : Mode) (term : Nat → Answer) (cs : List Char) (s : St) (written : Nat) : Ret :=
  match Buf.append Console.cap s.buf (cs.drop written) with
  | .ok (b, n) => flushFull m term { s with buf := b } ((written + n) % 4294967296)
  | _ => .endless

/-- The state of a call of `write(const char*, n)`. -/
inductive Call where
  | running (s : St) (written : Nat)
  | returned (s : St) (n : Nat)
  | thrown (s : St) (e : Flag)
  | bad
  deriving Repr, DecidableEq

/-- At most `k` passes of the loop (`console.cpp:39-46, 71-78`). -/
def passes (m : Mode) (term : Nat → Answer) (cs : List Char) : Nat → St → Nat → Call
  | 0, s, written => if written < cs.length then .running s written else .returned s cs.length
  | k + 1, s, written =>
    if written < cs.length then
      match pass m term cs s written with
      | .ok s w => passes m term cs k s w
      | .throw s e => .thrown s e
      | .endless => .bad
    else .returned s cs.length

/-- `write(const char*, n)` (`console.cpp:37-47, 69-79`).  The number of passes that are followed suffices whenever the
call ends at all (`C135_passes`). -/
def puts (m : Mode) (term : Nat → Answer) (s : St) (cs : List Char) : Ret :=
  match passes m term cs (cs.length + 1) s 0 with
  | .returned s n => .ok s n
  | .thrown s e => .throw s e
  | _ => .endless

/-- The calls (`console.cpp:28-54, 60-86`) and the destructor (`console.hpp:49, 126`; `CharStringBuffer` has an empty
one, `character_buffer.hpp:93`). -/
inductive Op where
  | put (c : Char) | puts (cs : List Char) | flush | destroy
  deriving Repr, DecidableEq

/-- One call. -/
def step (m : Mode) (term : Nat → Answer) (s : St) : Op → Ret
  | .put c => put m term s c
  | .puts cs => puts m term s cs
  | .flush => flush m term s
  | .destroy => .ok { s with buf := [] } 0

/-- A history of calls; the caller catches exceptions and goes on.  `none`: a call does not end. -/
def run (m : Mode) (term : Nat → Answer) : St → List Op → Option (St × List (Obs Nat))
  | s, [] => some (s, [])
  | s, op :: ops =>
    match step m term s op with
    | .ok s n => (run m term s ops).map fun r => (r.1, .ok n :: r.2)
    | .throw s e => (run m term s ops).map fun r => (r.1, .error e :: r.2)
    | .endless => none

end Ecl.ConsoleFailure
