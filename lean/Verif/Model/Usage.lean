import Verif.Core.Outcome
import Verif.Model.CmdLine

/-!
# Model of the help texts of `ecl_command_line`

`std_output.hpp`, `docbook_output.hpp` and the `shortID` and `longID` functions of the arguments, all in
`ecl_command_line/include/ecl/command_line/`.  A text is a list of characters; what goes to a stream is
the text put there.  Texts are shorter than 2^31 characters.
-/
set_option autoImplicit false

namespace Ecl.Usage
open Ecl.CmdLine (Str Arg)

/-! ## Breaking lines -/

/-- The characters before which a line is broken (`std_output.hpp:241-243`). -/
def isBreak (c : Char) : Bool := c == ' ' || c == ',' || c == '|'

/-- `s[i]` for `i` up to the length (there it is NUL). (At `std_output.hpp:234-277`.) -/
def charAt (s : Str) (i : Nat) : Char := (s[i]?).getD '\x00'

/-- The loop that goes back to a break (`std_output.hpp:241-245`) on the text `rest` that starts at
`start`.  The values 0 and -1 of `stringLen` are both 0 here: they are treated alike (line 249).  The
loop looks at the character before it looks at the length, thus before the text if this is its
beginning. -/
def backUp (first : Bool) (rest : Str) : Nat → Outcome Nat
  | 0 => if isBreak (charAt rest 0) then .ok 0 else if first then .ub else .ok 0
  | n + 1 => if isBreak (charAt rest (n + 1)) then .ok (n + 1) else backUp first rest n

/-- `stringLen` up to the first end of line (`std_output.hpp:253-255`). -/
def cutAtNewline (rest : Str) (n : Nat) : Nat :=
  match (rest.take n).findIdx? (· == '\n') with
  | some i => i + 1
  | none => n

/-- The length of the next line (`std_output.hpp:237-255`). -/
def lineLength (first : Bool) (allowed : Nat) (rest : Str) : Outcome Nat := do
  let n ← if min rest.length allowed = allowed then backUp first rest allowed
    else .ok (min rest.length allowed)
  .ok (cutAtNewline rest (if n = 0 then allowed else n))

/-- The loop over the lines (`std_output.hpp:234-277`) on the text from `start` on, with at most `fuel`
passes; `none` if it needs more.  `indent` and `allowed` belong to this line, `offset` is added after the
first. -/
def lines (offset : Nat) : Nat → Bool → Nat → Nat → Str → Outcome (Option (List Str))
  | fuel, first, indent, allowed, rest =>
    if rest = [] then .ok (some [])
    else match fuel with
      | 0 => .ok none
      | fuel + 1 => do
        let n ← lineLength first allowed rest
        let more ← lines offset fuel false (if first then indent + offset else indent)
          (if first then allowed - offset else allowed) ((rest.drop n).dropWhile (· == ' '))
        .ok (more.map ((List.replicate indent ' ' ++ rest.take n) :: ·))

/-- `spacePrint` (`std_output.hpp:222-285`): the lines put out, each followed by an end of line.  All
calls have `indent + offset < width`, which keeps `allowedLen` positive. -/
def spacePrint (width indent offset fuel : Nat) (s : Str) : Outcome (Option (List Str)) :=
  if s.length + indent > width ∧ width > 0 then lines offset fuel true indent (width - indent) s
  else .ok (some [List.replicate indent ' ' ++ s])

/-! ## The texts of an argument -/

/-- An argument with the description of its type (`value_arg.hpp:174`, `multi_arg.hpp:171`). -/
structure Item (V : Type) where
  arg : Arg V
  type : Str

variable {V : Type}

/-- `_valueRequired`: true for `ValueArg` and `MultiArg`, false for switches (`value_arg.hpp:358`,
`multi_arg.hpp:330`, `switch_arg.hpp:113`, `multi_switch_arg.hpp:117`). -/
def valueRequired (a : Arg V) : Bool :=
  match a.slot with
  | .value _ => true
  | .multi _ => true
  | .switch _ => false
  | .multiSwitch _ => false

/-- `Arg::shortID` (`arg.hpp:396-415`). -/
def argShortID (delim : Char) (a : Arg V) (value : Str) : Str :=
  let id := if a.flag ≠ [] then CmdLine.flagStartString ++ a.flag else CmdLine.nameStartString ++ a.name
  let id := if valueRequired a then id ++ [delim] ++ ['<'] ++ value ++ ['>'] else id
  if a.required then id else ['['] ++ id ++ [']']

/-- `Arg::longID` (`arg.hpp:417-438`). -/
def argLongID (a : Arg V) (value : Str) : Str :=
  let v := if valueRequired a then [' ', '<'] ++ value ++ ['>'] else []
  (if a.flag ≠ [] then CmdLine.flagStartString ++ a.flag ++ v ++ [',', ' ', ' '] else []) ++
    CmdLine.nameStartString ++ a.name ++ v

/-- The virtual function `shortID`, called without an argument: `val` is the default
(`value_arg.hpp:470-474`, `multi_arg.hpp:449-454`, `arg.hpp:296`, `multi_switch_arg.hpp:172-177`,
`unlabeled_value_arg.hpp:292-298`, `unlabeled_multi_arg.hpp:263-268`). -/
def shortID (delim : Char) (i : Item V) : Str :=
  if i.arg.unlabeled then
    match i.arg.slot with
    | .multi _ => ['<'] ++ i.type ++ ['>', ' ', '.', '.', '.']
    | _ => ['<'] ++ i.type ++ ['>']
  else
    match i.arg.slot with
    | .value _ => argShortID delim i.arg i.type
    | .multi _ => argShortID delim i.arg i.type ++ [' ', '.', '.', '.', ' ']
    | .switch _ => argShortID delim i.arg ['v', 'a', 'l']
    | .multiSwitch _ => argShortID delim i.arg ['v', 'a', 'l'] ++ [' ', '.', '.', '.', ' '] ++ ['v', 'a', 'l']

/-- The virtual function `longID` (`value_arg.hpp:480-484`, `multi_arg.hpp:460-465`, `arg.hpp:302`,
`multi_switch_arg.hpp:179-184`, `unlabeled_value_arg.hpp:304-313`, `unlabeled_multi_arg.hpp:271-276`). -/
def longID (i : Item V) : Str :=
  if i.arg.unlabeled then
    match i.arg.slot with
    | .multi _ => ['<'] ++ i.type ++ ['>'] ++ "  (accepted multiple times)".toList
    | _ => ['<'] ++ i.type ++ ['>']
  else
    match i.arg.slot with
    | .value _ => argLongID i.arg i.type
    | .multi _ => argLongID i.arg i.type ++ "  (accepted multiple times)".toList
    | .switch _ => argLongID i.arg ['v', 'a', 'l']
    | .multiSwitch _ => argLongID i.arg ['v', 'a', 'l'] ++ "  (accepted multiple times) ".toList ++ ['v', 'a', 'l']

/-- The description of the values a constraint allows, from their texts (`values_constraint.hpp:87-109`). -/
def constraintText : List Str → Str
  | [] => []
  | v :: vs => v ++ vs.flatMap (fun v => ['|'] ++ v)

/-! ## The usage line -/

/-- `XorHandler::contains` (`xor_handler.hpp:125-135`). -/
def contains (groups : List (List (Item V))) (i : Item V) : Bool :=
  groups.any fun g => g.any fun j => j.arg.id == i.arg.id

/-- A group (`std_output.hpp:162-167`), appended to the text so far: the last character is replaced. -/
def addGroup (delim : Char) (s : Str) (g : List (Item V)) : Str :=
  ((s ++ [' ', '{'] ++ g.flatMap (fun i => shortID delim i ++ ['|'])).dropLast) ++ ['}']

/-- The text of `_shortUsage` (`std_output.hpp:157-173`). -/
def usageText (delim : Char) (prog : Str) (groups : List (List (Item V))) (args : List (Item V)) : Str :=
  groups.foldl (addGroup delim) (prog ++ [' ']) ++
    (args.filter fun i => !contains groups i).flatMap fun i => [' '] ++ shortID delim i

/-- `secondLineOffset` (`std_output.hpp:176-178`). -/
def secondLineOffset (prog : Str) : Nat := if prog.length + 2 > 37 then 37 else prog.length + 2

/-- `_shortUsage` (`std_output.hpp:149-182`). -/
def shortUsage (delim : Char) (fuel : Nat) (prog : Str) (groups : List (List (Item V)))
    (args : List (Item V)) : Outcome (Option (List Str)) :=
  spacePrint 75 3 (secondLineOffset prog) fuel (usageText delim prog groups args)

/-! ## DocBook -/

/-- `substituteSpecialChars` (`docbook_output.hpp:192-202`) with at most `fuel` passes. -/
def substitute (r : Char) (x : Str) : Nat → Str → Option Str
  | fuel, s =>
    match s.findIdx? (· == r) with
    | none => some s
    | some p =>
      match fuel with
      | 0 => none
      | fuel + 1 => substitute r x fuel (s.take p ++ x ++ s.drop (p + 1))

/-- `removeChar` (`docbook_output.hpp:204-211`) with at most `fuel` passes. -/
def remove (r : Char) : Nat → Str → Option Str
  | fuel, s =>
    match s.findIdx? (· == r) with
    | none => some s
    | some p =>
      match fuel with
      | 0 => none
      | fuel + 1 => remove r fuel (s.take p ++ s.drop (p + 1))

/-- The text of an argument (`docbook_output.hpp:215-222`, `242-249`). -/
def docId (fuel : Nat) (id : Str) : Option Str := do
  let id ← substitute '<' ['&', 'l', 't', ';'] fuel id
  let id ← substitute '>' ['&', 'g', 't', ';'] fuel id
  let id ← remove '[' fuel id
  remove ']' fuel id

/-- The attribute `repeat` of an argument (`docbook_output.hpp:228-230`): only `MultiArg` sets
`_acceptsMultipleValues` (`multi_arg.hpp:336`). -/
def docRepeat (a : Arg V) : Bool :=
  match a.slot with
  | .multi _ => true
  | _ => false

/-- What is listed for a group (`docbook_output.hpp:151-162`): its members, and `none` for each line
`OR`; `groups` is the number of groups. -/
def docGroup (groups : Nat) (g : List (Item V)) : List (Option (Item V)) :=
  (g.zipIdx).flatMap fun p => if p.2 < groups - 1 then [some p.1, none] else [some p.1]

end Ecl.Usage
