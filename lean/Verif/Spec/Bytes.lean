import Verif.Model.StringDevice

/-!
# Specification: a byte queue

`Tape` is all bytes written since the last `clear`, and how many of them have been read.  `run`
counts the single-character writes since the device was created or last written in bulk; it is
`none` after `clear` until the next bulk write.  It plays no role in what the operations return.
-/
set_option autoImplicit false

namespace Ecl.Spec
open StrDev (Op Out)

structure Tape where
  all : List Char
  pos : Nat
  run : Option Nat
  deriving Repr, DecidableEq

/-- One operation on the byte queue. -/
def tapeStep (t : Tape) : Op → Tape × Obs Out
  | .put c => (⟨t.all ++ [c], t.pos, t.run.map (· + 1)⟩, .ok (.count 1))
  | .puts cs => (⟨t.all ++ cs, t.pos, if cs = [] then t.run else some 0⟩, .ok (.count cs.length))
  | .get =>
    match t.all[t.pos]? with
    | some c => (⟨t.all, t.pos + 1, t.run⟩, .ok (.char (some c)))
    | none => (t, .ok (.char none))
  | .gets n => (⟨t.all, min (t.pos + n) t.all.length, t.run⟩, .ok (.text ((t.all.drop t.pos).take n)))
  | .clear => (⟨[], 0, none⟩, .ok .unit)
  | .cstr => (t, .ok (.text (t.all.takeWhile (· ≠ '\x00'))))
  | .str => (t, .ok (.text t.all))
  | .size => (t, .ok (.count t.all.length))
  | .remaining => (t, .ok (.count (t.all.length - t.pos)))

/-- Bytes handed to the device by an operation. -/
def opBytes : Op → List Char
  | .put c => [c]
  | .puts cs => cs
  | _ => []

/-- Bytes delivered by the result of an operation. -/
def readBytes : Op → Obs Out → List Char
  | .get, .ok (.char (some c)) => [c]
  | .gets _, .ok (.text cs) => cs
  | _, _ => []

end Ecl.Spec
