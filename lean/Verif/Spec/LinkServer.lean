import Verif.Spec.Link

/-!
# The server's side of a connection as it is
-/
set_option autoImplicit false

namespace Ecl.Socket

/-- What the server makes of an answer: only an empty read and `EPIPE` tell it that the peer is gone; a reset is just
trouble. -/
def serverFound : Op → Found
  | .read _ (.err e) => .trouble e
  | op => found op

/-- A read on a connection known to be down says so; a write or a peek goes to the system all the same. -/
def serverLinkStep (m : Mode) (flagOf : Errno → Flag) (up : Bool) (op : Op) : Bool × Obs Int :=
  match up, op with
  | false, .read _ _ => (false, .ok (-2))
  | _, _ =>
    match serverFound op with
    | .bytes k => (up, .ok k)
    | .gone => (false, .ok (-3))
    | .trouble e => (up, match m with | .debug => .error (flagOf e) | .release => .ok (-1))

end Ecl.Socket
