import Mathlib.Data.Rat.Defs
import Mathlib.Algebra.Order.Ring.Rat
import Mathlib.Algebra.Order.Group.Unbundled.Abs

/-!
# Decimal fractions as text: the reader's side
-/
set_option autoImplicit false

namespace Ecl.Spec

/-- `FixedNumeral d q t`: the text `t` is a decimal numeral with `d` decimals (and no point if there
are none), without superfluous leading zeros, with a minus sign exactly for negative `q`, and its
value differs from `q` by at most half a unit in the last place. -/
def FixedNumeral (d : Nat) (q : ℚ) (t : List Char) : Prop :=
  ∃ ip fp : List Char,
    t = (if q < 0 then ['-'] else []) ++ ip ++ (if d = 0 then [] else '.' :: fp) ∧
    fp.length = d ∧ ip ≠ [] ∧ (∀ c ∈ ip ++ fp, c.isDigit = true) ∧
    (ip.head? = some '0' → ip = ['0']) ∧
    abs ((Nat.ofDigitChars 10 (ip ++ fp) 0 : ℚ) / 10 ^ d - abs q) ≤ 1 / 2 / 10 ^ d

/-- The number of decimals for a precision argument: six by default, at most twenty. -/
def decimals (precision : Int) : Nat := if precision < 0 then 6 else min precision.toNat 20

end Ecl.Spec
