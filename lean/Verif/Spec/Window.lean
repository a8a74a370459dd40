import Verif.Core.Outcome

/-!
# Specification: a sliding window holding the last `N` values
-/
set_option autoImplicit false

namespace Ecl.Spec
variable {α : Type _}

inductive WOp (α : Type _) where
  | push (d : α)
  | get (i : Nat)
  | fill (v : α)

inductive WOut (α : Type _) where
  | unit
  | val (a : α)

/-- A window is the list of its values, oldest first; a push drops the oldest value. -/
def wStep (w : List α) : WOp α → List α × Obs (WOut α)
  | .push d => (w.tail ++ [d], .ok .unit)
  | .get i =>
    match w[i]? with
    | some a => (w, .ok (.val a))
    | none => (w, .error .outOfRange)
  | .fill v => (List.replicate w.length v, .ok .unit)

end Ecl.Spec
