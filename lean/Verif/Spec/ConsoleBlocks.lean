import Verif.Model.ConsoleFailure

/-!
# What a console with a buffer of 4095 bytes should hand over, and what a terminal shows of it
-/
set_option autoImplicit false

namespace Ecl.ConsoleBlocks
open ConsoleFailure

/-- The full blocks of `n` bytes of a stream. -/
def blocks (n : Nat) (l : List Char) : List (List Char) :=
  (List.range (l.length / n)).map fun i => (l.drop (i * n)).take n

/-- What is left behind the full blocks. -/
def rest (n : Nat) (l : List Char) : List Char := l.drop (l.length / n * n)

/-- What the terminal shows of a text handed over as a C string. -/
def shown (a : Answer) (block : List Char) : List Char :=
  let text := block.takeWhile (· ≠ '\x00')
  match a with
  | none => text
  | some k => text.take k

/-- What it shows of several texts, the first of which meets answer `i`. -/
def shownFrom (term : Nat → Answer) : Nat → List (List Char) → List Char
  | _, [] => []
  | i, b :: bs => shown (term i) b ++ shownFrom term (i + 1) bs

/-- The bytes handed over by a call. -/
def bytes : Op → List Char
  | .put c => [c]
  | .puts cs => cs
  | .flush => []
  | .destroy => []

end Ecl.ConsoleBlocks
