import Verif.Model.Usage
import Verif.Model.CmdLineSaid

/-!
# Model of what `ecl_command_line` prints: version, usage and failures

`std_output.hpp`, `help_visitor.hpp`, `version_visitor.hpp` and `cmd_line.hpp`, all in
`ecl_command_line/include/ecl/command_line/`.  Output is the list of the lines put into a stream, each with its
`std::endl`; that the streams take them is assumed.  The order between the two streams is not modelled.
-/
set_option autoImplicit false

namespace Ecl.HelpFrame
open Ecl.CmdLine (Str Arg T)
open Ecl.Usage (Item spacePrint shortUsage longID contains)
open Ecl.CmdLineSaid (Exc End errorLines)

/-- What the output looks at through `CmdLineInterface` (`cmd_line.hpp:44-90`, `cmd_line_interface.hpp:66-133`): the
program, its version and message, the exclusive groups, the arguments, and whether there is `--help`. -/
structure Cmd (V : Type) where
  prog : Str
  version : Str
  message : Str
  delim : Char
  groups : List (List (Item V))
  args : List (Item V)
  help : Bool

/-- Lines, or `none` if breaking them needs more passes than allowed. (As `spacePrint`, `std_output.hpp:222-285`.) -/
abbrev Lines := Outcome (Option (List Str))

/-- One piece of output after another. (`std_output.hpp:112-220`.) -/
def andThen (a b : Lines) : Lines :=
  match a with
  | .ok (some x) =>
    match b with
    | .ok (some y) => .ok (some (x ++ y))
    | r => r
  | r => r

/-- Lines put out as they are. (`std_output.hpp:112-220`.) -/
def put (ls : List Str) : Lines := .ok (some ls)

variable {V : Type}

/-- An argument (`std_output.hpp:198-199`, `211-212`). -/
def entry (fuel : Nat) (i : Item V) : Lines :=
  andThen (spacePrint 75 3 3 fuel (longID i)) (spacePrint 75 5 0 fuel (CmdLine.getDescription i.arg))

/-- An exclusive group (`std_output.hpp:194-205`). -/
def groupUsage (fuel : Nat) : List (Item V) → Lines
  | [] => put [[], []]
  | [i] => andThen (entry fuel i) (put [[], []])
  | i :: j :: is =>
    andThen (entry fuel i) (andThen (spacePrint 75 9 0 fuel "-- OR --".toList) (groupUsage fuel (j :: is)))

/-- The groups (`std_output.hpp:192-206`). -/
def groupsUsage (fuel : Nat) : List (List (Item V)) → Lines
  | [] => put []
  | g :: gs => andThen (groupUsage fuel g) (groupsUsage fuel gs)

/-- The other arguments (`std_output.hpp:209-214`). -/
def restUsage (fuel : Nat) (groups : List (List (Item V))) : List (Item V) → Lines
  | [] => put []
  | i :: is =>
    if contains groups i then restUsage fuel groups is
    else andThen (andThen (entry fuel i) (put [[]])) (restUsage fuel groups is)

/-- `_longUsage` (`std_output.hpp:184-219`). -/
def longUsage (fuel : Nat) (c : Cmd V) : Lines :=
  andThen (groupsUsage fuel c.groups)
    (andThen (restUsage fuel c.groups c.args) (andThen (put [[]]) (spacePrint 75 3 0 fuel c.message)))

/-- `usage` (`std_output.hpp:112-124`). -/
def usage (fuel : Nat) (c : Cmd V) : Lines :=
  andThen (put [[], "USAGE: ".toList, []])
    (andThen (shortUsage c.delim fuel c.prog c.groups c.args)
      (andThen (put [[], [], "Where: ".toList, []]) (andThen (longUsage fuel c) (put [[]]))))

/-- `version` (`std_output.hpp:103-110`). -/
def version (c : Cmd V) : List Str := [[], c.prog ++ "  version: ".toList ++ c.version, []]

/-- What went to the standard output and to the error stream. (`std_output.hpp:103-147`.) -/
structure Printed where
  out : List Str
  err : List Str
  deriving DecidableEq, Repr

/-- `failure` (`std_output.hpp:126-147`). -/
def failure (fuel : Nat) (c : Cmd V) (x : Exc) : Outcome (Option Printed) :=
  if c.help then
    match andThen (put (errorLines x ++ ["Brief USAGE: ".toList]))
        (andThen (shortUsage c.delim fuel c.prog c.groups c.args)
          (put [[], "For complete USAGE and HELP type: ".toList, "   ".toList ++ c.prog ++ " --help".toList, []])) with
    | .ok ls => .ok (ls.map fun l => ⟨[], l⟩)
    | .throw e => .throw e
    | .ub => .ub
  else
    match usage fuel c with
    | .ok ls => .ok (ls.map fun l => ⟨l, errorLines x⟩)
    | .throw e => .throw e
    | .ub => .ub

/-- What is seen of the process: it goes on with the arguments, or it has ended with a status.
(`cmd_line.hpp:368-413`, `help_visitor.hpp:58`, `version_visitor.hpp:58`.) -/
inductive Seen (V : Type) where
  | goesOn (c : T V)
  | exits (status : Nat) (p : Printed)

/-- The command line object as the output sees it: `type` gives the descriptions of the types.  Parsing changes none of
this. (`cmd_line.hpp:368-413`.) -/
def view (prog version message : Str) (help : Bool) (type : Nat → Str) (c : T V) : Cmd V where
  prog := prog
  version := version
  message := message
  delim := c.delim
  groups := c.xors.map fun g => g.filterMap fun id =>
    (c.args.find? fun a => decide (a.id = id)).map fun a => ⟨a, type a.id⟩
  args := c.args.map fun a => ⟨a, type a.id⟩
  help := help

/-- `parse(argc, argv)` (`cmd_line.hpp:368-413`) with all of the words, the first one being the name of the program.
Without words `argv[0]` is a null pointer, from which no string can be made (line 372). -/
def run (fuel : Nat) (version message : Str) (help : Bool) (type descr : Nat → Str) (c : T V) :
    List Str → Outcome (Option (Seen V))
  | [] => .ub
  | prog :: argv =>
    match CmdLineSaid.parse descr c argv with
    | .ok c' => .ok (some (.goesOn c'))
    | .error (.said _ x) =>
      match failure fuel (view prog version message help type c) x with
      | .ok p => .ok (p.map (.exits 1))
      | .throw e => .throw e
      | .ub => .ub
    | .error .help =>
      match usage fuel (view prog version message help type c) with
      | .ok ls => .ok (ls.map fun l => .exits 0 ⟨l, []⟩)
      | .throw e => .throw e
      | .ub => .ub
    | .error .version => .ok (some (.exits 0 ⟨HelpFrame.version (view prog version message help type c), []⟩))
    | .error .ub => .ub

end Ecl.HelpFrame
