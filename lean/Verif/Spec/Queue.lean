import Verif.Core.Outcome

/-!
# Specification: a bounded queue that evicts its oldest element
-/
set_option autoImplicit false

namespace Ecl.Spec
variable {α : Type _}

/-- Append `d`; when `cap` elements are stored already, drop the oldest. -/
def qPush (cap : Nat) (q : List α) (d : α) : List α :=
  if q.length < cap then q ++ [d] else (q ++ [d]).tail

/-- The operations a user performs on the queue. -/
inductive QOp (α : Type _) where
  | push (d : α)
  | pop
  | get (i : Nat)
  | fill (v : α)
  | size
  | clear

inductive QOut (α : Type _) where
  | unit
  | val (a : α)
  | num (n : Nat)

/-- One step of the bounded queue; popping or indexing outside its contents is an error. -/
def qStep (cap : Nat) (q : List α) : QOp α → List α × Obs (QOut α)
  | .push d => (qPush cap q d, .ok .unit)
  | .pop =>
    match q with
    | [] => ([], .error .outOfRange)
    | a :: q' => (q', .ok (.val a))
  | .get i =>
    match q[i]? with
    | some a => (q, .ok (.val a))
    | none => (q, .error .outOfRange)
  | .fill v => (List.replicate q.length v, .ok .unit)
  | .size => (q, .ok (.num q.length))
  | .clear => ([], .ok .unit)

end Ecl.Spec
