import Verif.Model.Packet
import Verif.Spec.Text

/-! # What a buffer of packed integers is expected to do -/
set_option autoImplicit false

namespace Ecl.Spec
open Ecl.Packet

/-- The `n` lowest digits of a number to the base 256 (of a negative one: two's complement). -/
def lowDigits : Nat → Int → List Nat
  | 0, _ => []
  | n + 1, v => (v % 256).toNat :: lowDigits n (v / 256)

/-- The number that `n` bytes from `start` on stand for. -/
def fieldValue (t : Ty) (buf : List Nat) (start n : Nat) : Int :=
  if t.signed then twos t.bits (leValue ((buf.drop start).take n)) else leValue ((buf.drop start).take n)

/-- The buffer with a number in the `n` bytes from `start` on. -/
def withField (buf : List Nat) (start n : Nat) (v : Int) : List Nat :=
  buf.take start ++ lowDigits n v ++ buf.drop (start + n)

/-- A buffer and the converters that have failed. -/
structure PacketView where
  buf : List Nat
  badWriters : List Nat
  badReaders : List Nat

/-- What a call does: a stencil outside the buffer is refused; otherwise the number is written or read, unless the
size is wrong, which is refused (when reading: only if it is too large; in a release build the part that fits is read
then). -/
def PacketView.step (m : Mode) (writes reads : Nat → Ty) (d : PacketView) : Op → PacketView × Obs Out
  | .write c start n v =>
    if d.buf.length < start + n then (d, .error .outOfRange)
    else if n = (writes c).bits / 8 then ({ d with buf := withField d.buf start n v }, .ok .done)
    else ({ d with badWriters := c :: d.badWriters }, match m with
      | .debug => .error .conversionError
      | .release => .ok .done)
  | .read c start n =>
    if d.buf.length < start + n then (d, .error .outOfRange)
    else if n ≤ (reads c).bits / 8 then (d, .ok (.value (fieldValue (reads c) d.buf start n)))
    else match m with
      | .debug => (d, .error .conversionError)
      | .release => ({ d with badReaders := c :: d.badReaders }, .ok (.value (fieldValue (reads c) d.buf start ((reads c).bits / 8))))
  | .writerError c => (d, .ok (.flag (if c ∈ d.badWriters then .conversionError else .noError)))
  | .readerError c => (d, .ok (.flag (if c ∈ d.badReaders then .conversionError else .noError)))

/-- The calls that are covered: in a release build stencils inside the buffer; reading at most four bytes, for types
of more than 32 bits below 2³¹. -/
def PacketView.Covered (m : Mode) (reads : Nat → Ty) (d : PacketView) : Op → Prop
  | .write _ start n _ => m = .release → start + n ≤ d.buf.length
  | .read c start n =>
    (m = .release → start + n ≤ d.buf.length) ∧
    (n ≤ (reads c).bits / 8 ∨ m = .release → n ≤ 4 ∧ (32 < (reads c).bits → leValue ((d.buf.drop start).take n) < 2 ^ 31))
  | _ => True

end Ecl.Spec

namespace Ecl.Packet

/-- A type that exists. -/
def Ty.Exists (t : Ty) : Prop := t.bits = 8 ∨ t.bits = 16 ∨ t.bits = 32 ∨ t.bits = 64

/-- The call does not write into the `n` places from `start` on. -/
def Op.Avoids (start n : Nat) : Op → Prop
  | .write _ s k _ => s + k ≤ start ∨ start + n ≤ s
  | _ => True

end Ecl.Packet
