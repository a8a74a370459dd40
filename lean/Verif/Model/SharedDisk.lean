import Verif.Model.Files

/-!
# One `SharedFile` over a disk that refuses some of the bytes (`ecl_devices/src/lib/shared_file.cpp`)

`Model/Files.lean` has many handles and files that either take everything or nothing.  Here one handle on one file is
followed, and every `fwrite` may fail, after any number of bytes.
-/
set_option autoImplicit false

namespace Ecl.SharedDisk
variable {α : Type _}

/-- How `fwrite` ends (`ofile_pos.cpp:134-150`): it takes all bytes, or fails after `k` of them. -/
abbrev Answer := Option Nat

/-- The handle's `buffer` (`shared_file.hpp:232-235`), the bytes the file has taken, the number of times it was asked, and
the flag that `error()` shows (`shared_file.hpp:84`; the flag of the `OFile` always has the same value). -/
structure St (α : Type _) where
  buf : List α
  out : List α
  asked : Nat
  err : Flag
  deriving DecidableEq, Repr

/-- A handle that has just been opened (`shared_file.cpp:159-169`). -/
def opened : St α := ⟨[], [], 0, .noError⟩

/-- `flush()` (`shared_file.cpp:200-216`) with `OFile::write` (`ofile_pos.cpp:134-150`).  `fwrite` of no bytes gives 0
without asking the disk, which is taken for a failure.  A debug build throws before the flag is set and before the
buffer is cleared.  The result is 1 for true and 0 for false. -/
def flush (m : Mode) (disk : Nat → Answer) (s : St α) : Res (St α) Int :=
  let refused : St α → Res (St α) Int := fun s => match m with
    | .debug => .throw s .writeError
    | .release => .ok { s with buf := [], err := .writeError } 0
  if s.buf = [] then refused s
  else match disk s.asked with
    | none => .ok ⟨[], s.out ++ s.buf, s.asked + 1, .noError⟩ 1
    | some k => refused { s with out := s.out ++ s.buf.take k, asked := s.asked + 1 }

/-- What a call does after it has put bytes into the buffer: `shared_file.cpp:179-184`, `191-195`. -/
def flushed (m : Mode) (disk : Nat → Answer) (s : St α) (next : St α → Res (St α) Int) : Res (St α) Int :=
  if Buf.full Shared.cap s.buf then
    match flush m disk s with
    | .ok s n => if n = 0 then .ok s (-1) else next s
    | .throw s e => .throw s e
    | .ub => .ub
  else next s

/-- `write(const char&)` (`shared_file.cpp:177-185`). -/
def put (m : Mode) (disk : Nat → Answer) (s : St α) (c : α) : Res (St α) Int :=
  match Buf.append1 Shared.cap s.buf c with
  | .ok (buf, n) => flushed m disk { s with buf := buf } fun s => .ok s n
  | .throw e => .throw s e
  | .ub => .ub

/-- The loop of `write(const char*, n)` (`shared_file.cpp:189-196`) on the bytes still to be taken.  The number of
passes is bounded here; the bound is never met (`C139_write`). -/
def loop (m : Mode) (disk : Nat → Answer) (n : Int) : Nat → St α → List α → Res (St α) Int
  | _, s, [] => .ok s n
  | 0, _, _ :: _ => .ub
  | f + 1, s, c :: cs =>
    match Buf.append Shared.cap s.buf (c :: cs) with
    | .ok (buf, k) => flushed m disk { s with buf := buf } fun s => loop m disk n f s ((c :: cs).drop k)
    | .throw e => .throw s e
    | .ub => .ub

/-- `write(const char*, n)` (`shared_file.cpp:187-198`), for fewer than 2^32 bytes (the counter is an `unsigned int`; see
`Model/ConsoleFailure.lean` for the same loop with more). -/
def write (m : Mode) (disk : Nat → Answer) (s : St α) (cs : List α) : Res (St α) Int :=
  loop m disk cs.length (cs.length + 1) s cs

/-- The calls of the class on an open file (`shared_file.hpp:177-216`). -/
inductive Op (α : Type _) where
  | put (c : α)
  | write (cs : List α)
  | flush
  deriving DecidableEq, Repr

/-- One call. (`shared_file.cpp:177-216`.) -/
def step (m : Mode) (disk : Nat → Answer) (s : St α) : Op α → Res (St α) Int
  | .put c => put m disk s c
  | .write cs => write m disk s cs
  | .flush => flush m disk s

end Ecl.SharedDisk
