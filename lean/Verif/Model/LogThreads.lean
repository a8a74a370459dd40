import Verif.Model.Files

/-!
# Model of several log streams on one file

`ecl_streams/include/ecl/streams/log_stream.hpp`, over the model of `SharedFile` (`Verif.Model.Files`).  `k`
streams, one in each thread, write to one file.  What a thread does is a sequence of calls of its own stream;
the calls of different threads alternate in any order.  (A call touches nothing but the buffer of its own stream
until it passes a block to `fwrite`, which is indivisible; for the accesses to the error flag see C107.)
-/
set_option autoImplicit false

namespace Ecl.LogThreads
open Shared (Op Out Env World)
variable {α : Type _}

/-- What the owner of stream `h` does: `<<` of a text (each `<<` of `LogStream::log`, `log_stream.cpp:57-68`, and
each one of the user is such a call, `output_text_stream.hpp:158-192`), or `<< endl`. -/
inductive Act (α : Type _) where
  | say (h : Nat) (text : List α)
  | endl (h : Nat)
  deriving DecidableEq, Repr

/-- The calls of the device.  `EndOfLine::action` (`end_of_line.hpp:55-58`) writes the newline and flushes. -/
def Act.calls (nl : α) : Act α → List (Op α)
  | .say h text => [.write h text]
  | .endl h => [.write h [nl], .flush h]

/-- The streams `0`, …, `k-1` are constructed on the file (`log_stream.hpp:130-141`): the device is default
constructed and then opened. -/
def construct (n : Nat) : Nat → List (Op α)
  | 0 => []
  | k + 1 => construct n k ++ [.default k, .openFile k n]

/-- The program. (Calls of `log_stream.hpp:130-141` and `output_text_stream.hpp:158-192`.) -/
def run (m : Mode) (env : Env) (nl : α) (n k : Nat) (acts : List (Act α)) : Option (World α × List (Obs Out)) :=
  runOps (Shared.step m env) World.init (construct n k ++ acts.flatMap (Act.calls nl))

end Ecl.LogThreads
