/-!
# Texts, numerals and bytes: the reader's side

Small definitions used to *state* the properties of converters, formatters and streams.  They do
not refer to any model of the code.
-/
set_option autoImplicit false

namespace Ecl.Spec

/-- The canonical decimal numeral of an integer: Lean's decimal digits, preceded by `-` iff the
integer is negative. -/
def numeral (i : Int) : List Char :=
  if i < 0 then '-' :: Nat.toDigits 10 i.natAbs else Nat.toDigits 10 i.natAbs

/-- Little-endian value of a list of bytes. -/
def leValue : List Nat → Nat
  | [] => 0
  | b :: bs => b + 256 * leValue bs

/-- Read the low `w` bits `n < 2^w` as a two's complement number. -/
def twos (w n : Nat) : Int := if n < 2 ^ (w - 1) then (n : Int) else (n : Int) - 2 ^ w

/-- Range of an integral type of `w` bits. -/
def InRange (w : Nat) (signed : Bool) (v : Int) : Prop :=
  if signed then -(2 ^ (w - 1) : Int) ≤ v ∧ v < 2 ^ (w - 1) else 0 ≤ v ∧ v < 2 ^ w

instance (w : Nat) (s : Bool) (v : Int) : Decidable (InRange w s v) := by
  unfold InRange; exact inferInstance

/-- `Hex c d`: the character `c` is a hexadecimal digit of value `d` (either case). -/
def Hex (c : Char) (d : Nat) : Prop :=
  (c, d) ∈ ("0123456789abcdef".toList.zip (List.range 16)) ∨
    (c, d) ∈ ("0123456789ABCDEF".toList.zip (List.range 16))

instance (c : Char) (d : Nat) : Decidable (Hex c d) := by unfold Hex; exact inferInstance

/-- `HexText s bs`: the text `s` is a sequence of blanks and tokens `0xHH`, and `bs` are the bytes
its tokens denote, in order. -/
inductive HexText : List Char → List Nat → Prop
  | nil : HexText [] []
  | blank {s bs} : HexText s bs → HexText (' ' :: s) bs
  | tok {s bs h l a b} : Hex h a → Hex l b → HexText s bs →
      HexText ('0' :: 'x' :: h :: l :: s) ((16 * a + b) :: bs)

end Ecl.Spec
