import Verif.Spec.Rows
import Verif.Model.PoseFormatter

/-! # What formatted poses should look like -/
set_option autoImplicit false

namespace Ecl.Spec
open Ecl.Form
variable {V : Type}

/-- A pose: position, then quaternion, each number with its name. -/
def ShownPose (printf : Nat → V → List Char) (p : Nat) (w : Int) (c : Rigid.SE3 V) (out : List Char) : Prop :=
  ∃ x y z qx qy qz qw, Cells printf p w [c.tx, c.ty, c.tz, c.qx, c.qy, c.qz, c.qw] [x, y, z, qx, qy, qz, qw] ∧
    out = "[x:".toList ++ x ++ "  y:".toList ++ y ++ "  z:".toList ++ z ++ "][x:".toList ++ qx ++ "  y:".toList ++ qy ++
      "  z:".toList ++ qz ++ "  w:".toList ++ qw ++ "  ]".toList

/-- The reader's view of a formatter of poses: permanent precision and width, the pose that waits and its temporary
width and precision, if any. -/
structure PoseView (V : Type) where
  p : Nat
  w : Int
  pending : Option (Rigid.SE3 V × Option (Int × Nat))

def PoseView.next (s : PoseView V) : Rigid.Op V → PoseView V
  | .precision p => { s with p := p }
  | .width w => { s with w := w }
  | .item c => { s with pending := some (c, none) }
  | .itemWP c w p => { s with pending := some (c, some (w, p)) }
  | .stream => { s with pending := none }

/-- What a call writes; streaming without a pose is an error in a debug build and writes nothing in a release build. -/
def PoseView.Writes (m : Mode) (printf : Nat → V → List Char) (s : PoseView V) (op : Rigid.Op V) (o : Obs (List Char)) : Prop :=
  match op with
  | .stream =>
    match s.pending with
    | none => o = if m = .debug then .error .usageError else .ok []
    | some (c, tmp) => ∃ out, o = .ok out ∧ ShownPose printf (tmp.getD (s.w, s.p)).2 (tmp.getD (s.w, s.p)).1 c out
  | _ => o = .ok []

def PoseView.History (m : Mode) (printf : Nat → V → List Char) : PoseView V → List (Rigid.Op V) → List (Obs (List Char)) → Prop
  | _, [], [] => True
  | s, op :: ops, o :: os => s.Writes m printf op o ∧ (s.next op).History m printf ops os
  | _, _, _ => False

end Ecl.Spec
