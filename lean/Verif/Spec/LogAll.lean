import Verif.Model.LogStream

/-!
# A log with everything its calls do: the reader's side

As `Spec.Log`, but the two settings may be unset (a default constructed stream), writing an entry is
then undefined, and the member function `log` turns on the mode it is given when headers are written.
-/
set_option autoImplicit false

namespace Ecl.Spec.Logs
open Ecl.LogStream (Op Ret)

structure Log where
  on : Int → Option (List Char)
  header : Option Bool
  stamp : Option Bool
  text : List Char

/-- A stream opened with a file name, and a default constructed one. -/
def named : Log := ⟨fun _ => none, some true, some true, []⟩
def unset : Log := ⟨fun _ => none, none, none, []⟩

/-- One entry in mode `m`; `none`: undefined. -/
def Log.write (l : Log) (m : Int) (stamp msg : List Char) : Option Log :=
  match l.header, l.stamp with
  | some wh, some ws =>
    let h := (l.on m).getD []
    some { l with
      on := if wh then fun k => if k = m then some h else l.on k else l.on
      text := l.text ++ (if ws then stamp ++ " ".toList else []) ++
        (if wh then "[".toList ++ h ++ "] ".toList else []) ++
        (if ws ∨ wh then ": ".toList else []) ++ msg }
  | _, _ => none

open Classical in
/-- A call; `none`: undefined. -/
noncomputable def Log.next (l : Log) : Op → Option (Log × Obs Ret)
  | .enable m h => some ({ l with on := fun k => if k = m then some ((l.on m).getD h) else l.on k }, .ok .unit)
  | .disable m => some ({ l with on := fun k => if k = m then none else l.on k }, .ok .unit)
  | .header b => some ({ l with header := some b }, .ok .unit)
  | .stamp b => some ({ l with stamp := some b }, .ok .unit)
  | .isOn m => some (l, .ok (.bool (l.on m).isSome))
  | .anyOn => some (l, .ok (.bool (decide (∃ m, (l.on m).isSome))))
  | .log m st msg => if (l.on m).isSome then (l.write m st msg).map fun l => (l, .ok .unit)
      else some (l, .ok .unit)
  | .rawLog m st msg => (l.write m st msg).map fun l => (l, .ok .unit)

/-- A history of calls: the log and what the calls gave; `none`: undefined. -/
noncomputable def Log.all : Log → List Op → Option (Log × List (Obs Ret))
  | l, [] => some (l, [])
  | l, op :: ops =>
    match l.next op with
    | none => none
    | some (l', o) => (l'.all ops).map fun r => (r.1, o :: r.2)

end Ecl.Spec.Logs
