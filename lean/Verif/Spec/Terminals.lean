import Verif.Model.Terminals

/-!
# What a terminal program should do

Only the names of the actions are taken from the model.
-/
set_option autoImplicit false

namespace Ecl.Spec
open Ecl.Terminal

/-- All bytes that are sent, in order. -/
def sent (es : List Ev) : List Nat := (es.map fun e => match e with | .send bs => bs | _ => []).flatten

/-- All text that is shown, in order (without time stamps). -/
def screen (es : List Ev) : List Char := (es.map fun e => match e with | .show t => t | _ => []).flatten

/-- The numbers of the characters. -/
def codes (t : List Char) : List Nat := t.map Char.toNat

/-- The received text with the current time before each line; `b`: a line begins. -/
def timedLines : Bool → List Char → List Ev
  | _, [] => []
  | b, c :: cs => (if b then [.stamp, .time] else []) ++ [.show [c]] ++ timedLines (c == '\n') cs

/-- A byte in hexadecimal. -/
def HexByte (c : Char) (t : List Char) : Prop :=
  ∃ a b, t = ['0', 'x', Nat.digitChar a, Nat.digitChar b] ∧ a < 16 ∧ b < 16 ∧ 16 * a + b = c.toNat % 256

/-- No line is empty. -/
def NoEmptyLine (t : List Char) : Prop :=
  t.head? ≠ some '\n' ∧ ∀ a b, t ≠ a ++ '\n' :: '\n' :: b

/-- The bytes among the results of reading a serial port. -/
def received (got : List Got) : List Char :=
  got.filterMap fun g => match g with | .byte c => some c | _ => none

end Ecl.Spec
