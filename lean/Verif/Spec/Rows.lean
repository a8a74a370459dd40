import Verif.Spec.Layout
import Verif.Model.ContainerFormatter

/-!
# What formatted containers and matrices should look like

Only the names of the calls are taken from the model.  `printf d v` is the text of `v` with `d` decimals.
-/
set_option autoImplicit false

namespace Ecl.Spec
open Ecl.Form
variable {V : Type}

/-- The cells of a row: every number with `p` decimals, right aligned in the width `w`. -/
def Cells (printf : Nat → V → List Char) (p : Nat) (w : Int) (c : List V) (cells : List (List Char)) : Prop :=
  List.Forall₂ (fun v t => Laid w .right (printf p v) t) c cells

/-- A container is shown in brackets, a space after each cell.  The width -1 stands for one that is chosen so
that all cells have it. -/
def ShownContainer (printf : Nat → V → List Char) (p : Nat) (w : Int) (c : List V) (out : List Char) : Prop :=
  ∃ cells, out = "[ ".toList ++ (cells.map fun t => t ++ " ".toList).flatten ++ "]".toList ∧
    if w = -1 then ∃ u : Nat, Cells printf p u c cells ∧ ∀ t ∈ cells, t.length = u
    else Cells printf p w c cells

/-- The reader's view of a container formatter: permanent precision and width, the container that waits and its
temporary precision and width, if any. -/
structure RowView (V : Type) where
  p : Nat
  w : Int
  pending : Option (List V × Option (Nat × Int))

def RowView.next (s : RowView V) : Cont.Op V → RowView V
  | .precision p => { s with p := p }
  | .width w => { s with w := w }
  | .setPW p w => { s with p := p, w := w }
  | .item c => { s with pending := some (c, none) }
  | .itemPW c p w => { s with pending := some (c, some (p, w)) }
  | .stream => { s with pending := none }

/-- What a call writes. -/
def RowView.Writes (printf : Nat → V → List Char) (s : RowView V) (op : Cont.Op V) (o : Obs (List Char)) : Prop :=
  match op with
  | .stream =>
    match s.pending with
    | none => o = .error .usageError
    | some (c, tmp) => ∃ out, o = .ok out ∧ ShownContainer printf (tmp.getD (s.p, s.w)).1 (tmp.getD (s.p, s.w)).2 c out
  | _ => o = .ok []

/-- What a sequence of calls writes. -/
def RowView.History (printf : Nat → V → List Char) : RowView V → List (Cont.Op V) → List (Obs (List Char)) → Prop
  | _, [], [] => True
  | s, op :: ops, o :: os => s.Writes printf op o ∧ (s.next op).History printf ops os
  | _, _, _ => False

end Ecl.Spec
