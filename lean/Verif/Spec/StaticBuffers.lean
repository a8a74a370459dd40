import Verif.Model.StaticBuffers

/-! # Calls on their own, and threads that keep out of each other's way -/
set_option autoImplicit false

namespace Ecl.Spec
open Ecl.StaticBuf

/-- What a call gives if no other thread interferes (`Model/TextStream.lean`, `Model/Formatters.lean`). -/
def alone {V : Type} (printf : Nat → V → List Char) : Call V → Result
  | .getInt t old inp => .int (TextStream.getInt t old inp)
  | .getFloat old inp => .float (TextStream.getFloat old inp)
  | .putFixed w a p v => .text (Form.Float.formatFloat printf w a p .fixed v)

/-- No two threads are in calls of the same instantiation. -/
def Exclusive {α : Type} (s : State α) : Prop :=
  ∀ i j k p q, i ≠ j → (s.th i).cur = some (k, p) → (s.th j).cur ≠ some (k, q)

end Ecl.Spec
