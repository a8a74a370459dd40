import Verif.Model.Converters
import Verif.Model.ArrayMore
import Mathlib.Logic.Function.Basic

/-!
# Model of integers in stencils of a byte buffer

A buffer (`Array<char,N>`, `Array<unsigned char,N>`, ... or `vector<unsigned char>`) whose parts are
addressed by stencils, and converters between integral types and stencils
(`ecl_containers/include/ecl/containers/stencil/converters.hpp:43-98`), which are used again and again.  Bytes
are represented as in `Converters.lean`.
-/
set_option autoImplicit false

namespace Ecl.Packet
open Ecl.Conv

/-- An integral type: its size in bits and whether it is signed
(`ecl_type_traits/include/ecl/type_traits/numeric_limits.hpp:70-244`). -/
structure Ty where
  bits : Nat
  signed : Bool
  deriving DecidableEq, Repr

/-- `byte_array[i] = static_cast<...>(input >> 8*i)` for the `k` places from `i` on
(`ecl_converters/include/ecl/converters/to_byte_array.hpp:101-106`) with `operator[]` of a stencil.  An exception
leaves what has been written. -/
def writeLoop (m : Mode) (s : Stencil) (v : Int) : Nat → Nat → List Nat → Res (List Nat) Unit
  | _, 0, buf => .ok buf ()
  | i, k + 1, buf =>
    match Stencil.set m buf s i (byteOf v i) with
    | .ok buf' => writeLoop m s v (i + 1) k buf'
    | .throw e => .throw buf e
    | .ub => .ub

/-- The loop that reads (`from_byte_array.hpp:92-96`) with `operator[]` of a stencil. -/
def readLoop (m : Mode) (w : Nat) (buf : List Nat) (s : Stencil) : Nat → Nat → Nat → Outcome Nat
  | _, 0, acc => .ok acc
  | i, k + 1, acc => do
    let b ← Stencil.get m buf s i
    let x ← shiftByte b i
    readLoop m w buf s (i + 1) k (acc ||| (x % 2 ^ w).toNat)

/-- `FromByteArray::operator()` on a stencil whose size has passed (`from_byte_array.hpp:92-105`). -/
def readAll (m : Mode) (t : Ty) (buf : List Nat) (s : Stencil) : Outcome Int := do
  let u ← readLoop m t.bits buf s 0 s.size 0
  .ok (if t.signed then (if u < 2 ^ (t.bits - 1) then (u : Int) else (u : Int) - 2 ^ t.bits) else u)

/-- The buffer and the `error_handler`s of the converters: number `c` writes, and number `c` reads
(`ecl_converters/include/ecl/converters/converter.hpp:31-38`). -/
structure Desk where
  buf : List Nat
  writer : Nat → Flag
  reader : Nat → Flag

/-- A desk with new converters (`converter.hpp:33`). -/
def Desk.new (buf : List Nat) : Desk := ⟨buf, fun _ => .noError, fun _ => .noError⟩

/-- Calls: write `v` with writer `c` into the stencil of `n` places from `start` on, read that stencil with reader
`c`, ask a writer or a reader for its error. -/
inductive Op where
  | write (c start n : Nat) (v : Int)
  | read (c start n : Nat)
  | writerError (c : Nat)
  | readerError (c : Nat)
  deriving DecidableEq, Repr

/-- What a call returns. -/
inductive Out where
  | done
  | value (v : Int)
  | flag (e : Flag)
  deriving DecidableEq, Repr

/-- `IntegralToByteArray::operator()` on a stencil (`to_byte_array.hpp:78-108`): the error is set before the
exception. -/
def write (m : Mode) (t : Ty) (d : Desk) (c : Nat) (s : Stencil) (v : Int) : Res Desk Out :=
  if s.size ≠ t.bits / 8 then
    let d' := { d with writer := Function.update d.writer c .conversionError }
    match m with
    | .debug => .throw d' .conversionError
    | .release => .ok d' .done
  else
    match writeLoop m s v 0 (t.bits / 8) d.buf with
    | .ok buf _ => .ok { d with buf := buf } .done
    | .throw buf e => .throw { d with buf := buf } e
    | .ub => .ub

/-- `FromByteArray::operator()` on a stencil (`from_byte_array.hpp:76-106`): the exception comes before the
error is set. -/
def read (m : Mode) (t : Ty) (d : Desk) (c : Nat) (s : Stencil) : Res Desk Out :=
  if t.bits / 8 < s.size ∧ m = .debug then .throw d .conversionError
  else
    let d' := if t.bits / 8 < s.size then { d with reader := Function.update d.reader c .conversionError } else d
    match readAll m t d.buf s with
    | .ok v => .ok d' (.value v)
    | .throw e => .throw d' e
    | .ub => .ub

/-- One call; `writes c` and `reads c` are the types of the converters.  A stencil is constructed for each call
(`stencil.hpp:138-146`); `error()` is `converter.hpp:35`. -/
def step (m : Mode) (writes reads : Nat → Ty) (d : Desk) : Op → Res Desk Out
  | .write c start n v =>
    match Stencil.mkIdx m d.buf.length start n with
    | .ok s => write m (writes c) d c s v
    | .throw e => .throw d e
    | .ub => .ub
  | .read c start n =>
    match Stencil.mkIdx m d.buf.length start n with
    | .ok s => read m (reads c) d c s
    | .throw e => .throw d e
    | .ub => .ub
  | .writerError c => .ok d (.flag (d.writer c))
  | .readerError c => .ok d (.flag (d.reader c))

end Ecl.Packet
