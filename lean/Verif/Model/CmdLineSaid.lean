import Verif.Model.CmdLine
import Verif.Model.Usage

/-!
# Model of what `ecl_command_line` says when it gives up

All in `ecl_command_line/include/ecl/command_line/`.  `Verif.Model.CmdLine` keeps of an exception only its kind; here it
is the exception itself, with its three texts, and what is printed of it.
-/
set_option autoImplicit false

namespace Ecl.CmdLineSaid
open Ecl.CmdLine (Str Arg Err Stop Scan T)

/-- `ArgException` (`arg_exception.hpp:30-109`). -/
structure Exc where
  text : Str
  id : Str
  kind : Str
  deriving DecidableEq, Repr

/-- `ArgParseException` (`arg_exception.hpp:117-133`). -/
def argParse (text id : Str) : Exc :=
  ⟨text, id, "Exception found while parsing the value the Arg has been passed.".toList⟩

/-- `CmdLineParseException` (`arg_exception.hpp:141-159`); the identifier may be left out. -/
def cmdLineParse (text : Str) (id : Str := "undefined".toList) : Exc :=
  ⟨text, id, ("Exception found when the values on the command line do not meet the requirements of the defined " ++
    "Args.").toList⟩

/-- `Arg::toString` (`arg.hpp:493-503`); the unlabeled arguments inherit it (`unlabeled_value_arg.hpp:46`,
`unlabeled_multi_arg.hpp:44`). -/
def toStr {V : Type} (a : Arg V) : Str :=
  (if a.flag ≠ [] then CmdLine.flagStartString ++ a.flag ++ [' '] else []) ++
    ['('] ++ CmdLine.nameStartString ++ a.name ++ [')']

/-- The exceptions of an argument (`value_arg.hpp:439-453,494-507`, `multi_arg.hpp:411-423,494-506`,
`switch_arg.hpp:175`), `val` being the text a value is read from and `descr` the description of its constraint.  The
last three kinds are not thrown by arguments. -/
def complaint {V : Type} (descr : Str) (a : Arg V) (val : Str) : Err → Exc
  | .alreadySet => cmdLineParse "Argument already set!".toList (toStr a)
  | .noDelimiter => argParse "Couldn't find delimiter for this argument!".toList (toStr a)
  | .missingValue => argParse "Missing a value for this argument!".toList (toStr a)
  | .unreadable => argParse ("Couldn't read argument value from string '".toList ++ val ++ ['\'']) (toStr a)
  | .tooMany => argParse ("More than one valid value parsed from string '".toList ++ val ++ ['\'']) (toStr a)
  | .constraint =>
    cmdLineParse ("Value '".toList ++ val ++ "' does not meet constraint: ".toList ++ descr) (toStr a)
  | .noMatch => cmdLineParse [] (toStr a)
  | .requiredMissing => cmdLineParse [] (toStr a)
  | .tooManyArgs => cmdLineParse [] (toStr a)

/-- How `parse` ends if it does not return (`cmd_line.hpp:404-412`, `help_visitor.hpp:58`, `version_visitor.hpp:58`). -/
inductive End where
  | said (e : Err) (x : Exc)
  | help
  | version
  | ub
  deriving DecidableEq, Repr

variable {V : Type}

/-- The text a value is read from (`value_arg.hpp:427-456`, `multi_arg.hpp:402-426`, `unlabeled_value_arg.hpp:283`,
`unlabeled_multi_arg.hpp:247`). -/
def valueText (d : Char) (tok : Str) (next : Option Str) (a : Arg V) : Str :=
  if a.unlabeled then tok
  else if (CmdLine.trimFlag d tok).2 = [] then next.getD [] else (CmdLine.trimFlag d tok).2

/-- The exception thrown by `processArg` of an argument, or the other ways it ends the process. (`arg.hpp:219`.) -/
def blame (descr : Nat → Str) (d : Char) (tok : Str) (next : Option Str) (a : Arg V) : Stop → End
  | .fail e => .said e (complaint (descr a.id) a (valueText d tok next a) e)
  | .help => .help
  | .version => .version
  | .ub => .ub

/-- The inner loop of `parse` (`cmd_line.hpp:384-392`). -/
def scan (descr : Nat → Str) (d : Char) (ign : Bool) (tok : Str) (next : Option Str) :
    List (Arg V) → Except End (Scan V)
  | [] => .ok ⟨[], none, tok, false, ign⟩
  | a :: as =>
    match CmdLine.processArg d ign tok next a with
    | .error e => .error (blame descr d tok next a e)
    | .ok r =>
      if r.matched then .ok ⟨r.arg :: as, some a.id, r.tok, r.skip, r.ign⟩
      else
        match scan descr d r.ign r.tok next as with
        | .error e => .error e
        | .ok q => .ok ⟨r.arg :: q.args, q.hit, q.tok, q.skip, q.ign⟩

/-- The outer loop of `parse` (`cmd_line.hpp:381-402`). -/
def loop (descr : Nat → Str) (xors : List (List Nat)) (d : Char) :
    Bool → List Str → List (Arg V) → Bool → Nat → Except End (List (Arg V) × Bool × Nat)
  | _, [], args, ign, count => .ok (args, ign, count)
  | true, _ :: toks, args, ign, count => loop descr xors d false toks args ign count
  | false, tok :: toks, args, ign, count =>
    match scan descr d ign tok toks.head? args with
    | .error e => .error e
    | .ok r =>
      match r.hit with
      | some id =>
        loop descr xors d r.skip toks (CmdLine.check xors r.args id).1 r.ign (count + (CmdLine.check xors r.args id).2)
      | none =>
        if CmdLine.emptyCombined r.tok then loop descr xors d false toks r.args r.ign count
        else if r.ign then loop descr xors d false toks r.args r.ign count
        else .error (.said .noMatch (cmdLineParse "Couldn't find match for argument".toList r.tok))

/-- `CmdLine::parse` (`cmd_line.hpp:368-413`); the exception is the one given to `failure` (line 411). -/
def parse (descr : Nat → Str) (c : T V) (argv : List Str) : Except End (T V) :=
  match loop descr c.xors c.delim false argv c.args c.ignoreRest 0 with
  | .error e => .error e
  | .ok (args, ign, count) =>
    if count < c.numRequired then
      .error (.said .requiredMissing (cmdLineParse "One or more required arguments missing!".toList))
    else if count > c.numRequired then .error (.said .tooManyArgs (cmdLineParse "Too many arguments!".toList))
    else .ok { c with args := args, ignoreRest := ign }

/-! ## What is printed -/

/-- `ArgException::argId` (`arg_exception.hpp:63-69`). -/
def argId (x : Exc) : Str := if x.id = "undefined".toList then [' '] else "Argument: ".toList ++ x.id

/-- The two lines `failure` begins with on the error stream (`std_output.hpp:131-132`), and the blank one. -/
def errorLines (x : Exc) : List Str :=
  ["PARSE ERROR: ".toList ++ argId x, "             ".toList ++ x.text, []]

/-! ## `what()` -/

/-- What a program does with exceptions it has caught (`arg_exception.hpp:74-79`).  `what i` is a call of `what()` on
the `i`-th of them; `read k` looks at the characters behind the pointer that the `k`-th call returned. -/
inductive WhatOp where
  | what (i : Nat)
  | read (k : Nat)
  deriving DecidableEq, Repr

/-- The static `ex` (`arg_exception.hpp:76`) and the number of the assignments made to it.  An assignment invalidates
the pointers into the string (standard library). -/
structure What where
  ex : Str
  calls : Nat
  deriving DecidableEq, Repr

/-- `what()` (`arg_exception.hpp:74-79`), and the use of its result; `xs` are the exceptions.  Their texts contain no
NUL. -/
def whatStep (xs : List Exc) (s : What) : WhatOp → Option (What × Option Str)
  | .what i =>
    match xs[i]? with
    | none => none
    | some x => some (⟨x.id ++ " -- ".toList ++ x.text, s.calls + 1⟩, none)
  | .read k => if k + 1 = s.calls then some (s, some s.ex) else none

/-- A sequence of them; `none` if one is undefined. (`arg_exception.hpp:74-79`.) -/
def whatRun (xs : List Exc) : What → List WhatOp → Option (List (Option Str))
  | _, [] => some []
  | s, op :: ops =>
    match whatStep xs s op with
    | none => none
    | some (s', r) => (whatRun xs s' ops).map (r :: ·)

end Ecl.CmdLineSaid
