import Verif.Model.Sockets

/-!
# Specification of a connection

A connection is up or down.  A call moves bytes, or learns that the peer is gone (then the connection is
down and the call says so), or fails for another reason.  Once the connection is down every call says that
there is no connection.
-/
set_option autoImplicit false

namespace Ecl.Socket

/-- What a call found out. -/
inductive Found where
  | bytes (k : Nat)
  | gone
  | trouble (e : Errno)
  deriving DecidableEq, Repr

/-- Reading the answers of the system: `recv` returning 0 for a non-empty request, `ECONNRESET`, and
`EPIPE` mean that the peer is gone.  (Peeking 0 bytes says nothing.) -/
def found : Op → Found
  | .read _ (.ret k) => if k = 0 then .gone else .bytes k
  | .read _ (.err .connReset) => .gone
  | .read _ (.err e) => .trouble e
  | .peek _ (.ret k) => .bytes k
  | .peek _ (.err e) => .trouble e
  | .write _ (.ret k) => .bytes k
  | .write _ (.err .pipe) => .gone
  | .write _ (.err e) => .trouble e

/-- The codes a caller sees: a count, -3 when the peer is found gone, -2 when the connection is down; other
failures throw in debug mode and give -1 in release mode. -/
def linkStep (m : Mode) (flagOf : Errno → Flag) (up : Bool) (op : Op) : Bool × Obs Int :=
  if up then
    match found op with
    | .bytes k => (true, .ok k)
    | .gone => (false, .ok (-3))
    | .trouble e => (true, match m with | .debug => .error (flagOf e) | .release => .ok (-1))
  else (false, .ok (-2))

/-- What the system guarantees: never more bytes than asked for; and the guard of the theorems: requests
of 1 to `2^31 - 1` bytes. -/
def Sane : Op → Prop
  | .read n r | .peek n r | .write n r =>
    0 < n ∧ n < 2147483648 ∧ ∀ k, r = .ret k → k ≤ n

end Ecl.Socket
