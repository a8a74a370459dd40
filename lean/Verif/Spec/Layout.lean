import Verif.Model.Formatters

/-!
# What formatted output should look like

Only the names of the settings (`Align`, `Base`, `Fmt`) are taken from the model.
-/
set_option autoImplicit false

namespace Ecl.Spec
open Ecl.Form

/-- `Laid w a core t`: the text `t` is `core` padded with spaces to width `w` on the side(s) given by
the alignment: left aligned text is followed by spaces, right aligned text preceded, centred text
has as many before as after it, or one more before. -/
def Laid (w : Int) (a : Align) (core t : List Char) : Prop :=
  ∃ l r : Nat, t = List.replicate l ' ' ++ core ++ List.replicate r ' ' ∧
    match a with
    | .no => l = 0 ∧ r = 0
    | .left => l = 0 ∧ (t.length : Int) = max w core.length
    | .right => r = 0 ∧ (t.length : Int) = max w core.length
    | .centre => (l = r ∨ l = r + 1) ∧ (t.length : Int) = max w core.length

/-- Value of digits, most significant first. -/
def digitsValue (b : Nat) (ds : List Nat) : Nat := ds.foldl (fun v d => v * b + d) 0

/-- The numeral of `v` with all digits of a type of `bits` bits, in base `b` (two's complement). -/
def FullNumeral (b : Nat) (bits n : Nat) (v : Int) (t : List Char) : Prop :=
  ∃ ds : List Nat, t = ds.map Nat.digitChar ∧ ds.length = n ∧ (∀ d ∈ ds, d < b) ∧
    (digitsValue b ds : Int) = v % 2 ^ bits

/-- Settings after a call that sets some of them: a positive width implies an alignment, no alignment
implies no width. -/
def setW (f : Fmt) (w : Int) : Fmt :=
  { f with
    width := w
    align := if w > 0 ∧ f.align = .no then .right else f.align }

def setA (f : Fmt) (a : Align) : Fmt :=
  { f with
    align := a
    width := if a = .no then 0 else f.width }

/-- The reader's view of an integer formatter: permanent settings, temporary settings waiting to be
used, the item waiting to be streamed. -/
structure View where
  perm : Fmt
  temp : Option Fmt
  pending : Option Int

/-- Settings calls change the temporary settings if there are any waiting, otherwise the permanent
ones.  (The form `(n, w, b)` has no entry here.) -/
def View.set (v : View) (f : Fmt → Fmt) : View :=
  match v.temp with
  | some t => { v with temp := some (f t) }
  | none => { v with perm := f v.perm }

def View.next (v : View) : Op → View
  | .base b => v.set fun f => { f with base := b }
  | .width w => v.set fun f => setW f w
  | .align a => v.set fun f => setA f a
  | .all w a b => v.set fun f => setA (setW { f with base := b } w) a
  | .item n => { v with pending := some n }
  | .itemWAB n w a b => { v with temp := some (setA ⟨w, a, b⟩ a), pending := some n }
  | .itemWB _ _ _ => v
  | .stream =>
    match v.pending with
    | none => v
    | some _ => { v with temp := none, pending := none }

/-- The settings that apply to the next item. -/
def View.eff (v : View) : Fmt := v.temp.getD v.perm

end Ecl.Spec
