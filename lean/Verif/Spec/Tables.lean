import Verif.Spec.Rows

/-!
# What formatted matrices and bytes should look like
-/
set_option autoImplicit false

namespace Ecl.Spec
open Ecl.Form
variable {V : Type}

/-- A row of a matrix: two spaces after each cell. -/
def ShownRow (printf : Nat → V → List Char) (p : Nat) (w : Int) (row : List V) (out : List Char) : Prop :=
  ∃ cells, out = (cells.map fun t => t ++ "  ".toList).flatten ∧ Cells printf p w row cells

/-- A matrix: every row on a line of its own, but no end of line if there is only one row. -/
def ShownMatrix (printf : Nat → V → List Char) (p : Nat) (w : Int) (rows : List (List V)) (out : List Char) : Prop :=
  ∃ lines, List.Forall₂ (ShownRow printf p w) rows lines ∧
    out = if rows.length = 1 then lines.flatten else (lines.map fun l => l ++ "\n".toList).flatten

/-- The reader's view of a matrix formatter: permanent precision and width, the matrix that waits and its
temporary width and precision, if any. -/
structure MatView (V : Type) where
  p : Nat
  w : Int
  pending : Option (List (List V) × Option (Int × Nat))

def MatView.next (s : MatView V) : Mat.Op V → MatView V
  | .precision p => { s with p := p }
  | .width w => { s with w := w }
  | .item c => { s with pending := some (c, none) }
  | .itemWP c w p => { s with pending := some (c, some (w, p)) }
  | .stream => { s with pending := none }

/-- What a call writes; streaming without a matrix is an error in a debug build and writes nothing in a release build. -/
def MatView.Writes (m : Mode) (printf : Nat → V → List Char) (s : MatView V) (op : Mat.Op V) (o : Obs (List Char)) : Prop :=
  match op with
  | .stream =>
    match s.pending with
    | none => o = if m = .debug then .error .usageError else .ok []
    | some (c, tmp) => ∃ out, o = .ok out ∧ ShownMatrix printf (tmp.getD (s.w, s.p)).2 (tmp.getD (s.w, s.p)).1 c out
  | _ => o = .ok []

def MatView.History (m : Mode) (printf : Nat → V → List Char) : MatView V → List (Mat.Op V) → List (Obs (List Char)) → Prop
  | _, [], [] => True
  | s, op :: ops, o :: os => s.Writes m printf op o ∧ (s.next op).History m printf ops os
  | _, _, _ => False

/-- A byte: `0x` and two hexadecimal digits. -/
def ShownByte (b : Int) (t : List Char) : Prop := ∃ ds, t = '0' :: 'x' :: ds ∧ FullNumeral 16 8 2 b ds

/-- Bytes in brackets, a space after each. -/
def ShownBytes (bs : List Int) (out : List Char) : Prop :=
  ∃ cells, out = "[ ".toList ++ (cells.map fun t => t ++ " ".toList).flatten ++ "]".toList ∧ List.Forall₂ ShownByte bs cells

end Ecl.Spec
