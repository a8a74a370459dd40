import Verif.Model.LogStream

/-!
# A log: the reader's side

Which modes are on, and under which header, is a function; the log is the text written.
(The type of calls is taken from the model.)
-/
set_option autoImplicit false

namespace Ecl.Spec
open Ecl.LogStream (Op Ret)

structure Log where
  on : Int → Option (List Char)
  header : Bool
  stamp : Bool
  text : List Char

/-- The text of one log entry. -/
def Log.entry (l : Log) (h stamp msg : List Char) : List Char :=
  (if l.stamp then stamp ++ " ".toList else []) ++
  (if l.header then "[".toList ++ h ++ "] ".toList else []) ++
  (if l.stamp ∨ l.header then ": ".toList else []) ++ msg

open Classical in
/-- A call: an entry is written exactly when its mode is on, under that mode's header, and changes
nothing else.  A mode that is on keeps its header when enabled again. -/
noncomputable def logStep (l : Log) : Op → Log × Obs Ret
  | .enable m h => (if (l.on m).isSome then l
      else { l with on := fun k => if k = m then some h else l.on k }, .ok .unit)
  | .disable m => ({ l with on := fun k => if k = m then none else l.on k }, .ok .unit)
  | .header b => ({ l with header := b }, .ok .unit)
  | .stamp b => ({ l with stamp := b }, .ok .unit)
  | .isOn m => (l, .ok (.bool (l.on m).isSome))
  | .anyOn => (l, .ok (.bool (decide (∃ m, (l.on m).isSome))))
  | .log m st msg =>
    (match l.on m with
      | some h => { l with text := l.text ++ l.entry h st msg }
      | none => l, .ok .unit)
  | .rawLog m st msg =>
    ({ l with text := l.text ++ l.entry ((l.on m).getD []) st msg }, .ok .unit)

end Ecl.Spec
