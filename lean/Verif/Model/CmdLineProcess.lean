import Verif.Model.CmdLine
import Mathlib.Logic.Function.Basic

/-!
# Several command lines in one process (`ecl_command_line`)

All line numbers refer to `/repo/ecl_command_line/include/ecl/command_line/`.

Three variables belong to the process, not to a `CmdLine`: the delimiter in use and whether the rest is ignored
(`arg.hpp:44,50`), and whether an optional unlabeled argument was constructed (`optional_unlabeled_tracker.hpp:35`).
`Model/CmdLine.lean` keeps them in its state; here they are kept apart and all command lines use the same ones.

Each argument object is added to one command line only.  An exception of a declaration ends the process, as an error
of `parse` does.
-/
set_option autoImplicit false

namespace Ecl.CmdLine

variable {V : Type}

/-- A `CmdLine` object (`cmd_line.hpp:57-90`); `next` is the identity for the next argument of the program. -/
structure Line (V : Type) where
  args : List (Arg V)
  xors : List (List Nat)
  numRequired : Nat
  next : Nat

/-- The process: its command lines (by the names the program gives them) and the static variables.
(`arg.hpp:44,50`, `optional_unlabeled_tracker.hpp:35`.) -/
structure Proc (V : Type) where
  lines : Nat → Option (Line V)
  delim : Char
  ignoreRest : Bool
  optionalSeen : Bool

/-- At the start (`arg.hpp:44,50`, `optional_unlabeled_tracker.hpp:35`). -/
def fresh : Proc V := ⟨fun _ => none, ' ', false, false⟩

/-- What the program does with a command line. (`cmd_line.hpp:257-270`, `328-366`, `368-413`.) -/
inductive Op (V : Type) where
  | make (i : Nat) (delim : Char) (helpAndVersion : Bool)
  | declare (i : Nat) (s : Stmt V)
  | parse (i : Nat) (argv : List Str)

/-- How the process ends early. (`cmd_line.hpp:357-360`, `404-412`; `arg.hpp:371-390`.) -/
inductive End where
  | spec (e : SpecErr)
  | stop (s : Stop)
  deriving DecidableEq, Repr

/-- A command line sees the static variables as they are. (`Arg::delimiter`, `Arg::ignoreRest`,
`arg.hpp:169,175`.) -/
def load (p : Proc V) (l : Line V) : T V := ⟨l.args, l.xors, l.numRequired, p.delim, p.ignoreRest, p.optionalSeen⟩

/-- And leaves them changed. (`Arg::beginIgnoring`, `Arg::setDelimiter`, `arg.hpp:164,210`.) -/
def save (p : Proc V) (i : Nat) (c : T V) (next : Nat) : Proc V :=
  ⟨Function.update p.lines i (some ⟨c.args, c.xors, c.numRequired, next⟩), p.delim, c.ignoreRest, c.optionalSeen⟩

/-- The number of arguments a statement constructs. (One call of `cmd_line.hpp:354-366` each.) -/
def Stmt.size : Stmt V → Nat
  | .one _ => 1
  | .xor ds => ds.length

/-- One step.  The constructor (`cmd_line.hpp:257-326`) sets the delimiter of the process (`cmd_line.hpp:295`) and
leaves the other two variables alone. -/
def step (p : Proc V) : Op V → Except End (Proc V)
  | .make i d hv =>
    .ok ⟨Function.update p.lines i (some ⟨(new d hv).args, (new d hv : T V).xors, (new d hv : T V).numRequired, 3⟩), d,
      p.ignoreRest, p.optionalSeen⟩
  | .declare i s =>
    match p.lines i with
    | none => .ok p
    | some l =>
      match declare (load p l) [s] l.next with
      | .error e => .error (.spec e)
      | .ok c => .ok (save p i c (l.next + s.size))
  | .parse i argv =>
    match p.lines i with
    | none => .ok p
    | some l =>
      match parse (load p l) argv with
      | .error e => .error (.stop e)
      | .ok c => .ok (save p i c l.next)

/-- A whole program. (A sequence of the calls of `cmd_line.hpp:257-413`.) -/
def run (p : Proc V) : List (Op V) → Except End (Proc V)
  | [] => .ok p
  | o :: os =>
    match step p o with
    | .error e => .error e
    | .ok q => run q os

end Ecl.CmdLine
