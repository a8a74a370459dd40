/-!
# Model of `ecl_command_line`: declaring arguments and parsing a command line

All line numbers refer to `/repo/ecl_command_line/include/ecl/command_line/`.

Texts are lists of characters; an `argv` string never contains NUL, which is what `operator[]`
yields one past the end of a `std::string`.  An argument object is a record with an identity
(`id`, standing for its address).  `exit(1)` after an `ArgException` is the outcome
`Stop.fail e` (the printed message is reduced to its kind), `exit(0)` of the help and version
visitors are `Stop.help` and `Stop.version`.  Visitors of the user are not modelled.  `int`
counters (`requiredCount`, the value of a multi switch) are unbounded here.
-/
set_option autoImplicit false

namespace Ecl.CmdLine

/-- A text: `std::string` as used throughout (`arg.hpp:62-87`, `cmd_line.hpp:368`). -/
abbrev Str := List Char

/-- Why `parse` gave up (`cmd_line.hpp:396-412` and the exceptions thrown by `processArg`). -/
inductive Err where
  | alreadySet | noDelimiter | missingValue | unreadable | tooMany | constraint
  | noMatch | requiredMissing | tooManyArgs
  deriving DecidableEq, Repr

/-- The process ended before `parse` returned. (`cmd_line.hpp:404-412`, `help_visitor.hpp:58`,
`version_visitor.hpp:58`.) -/
inductive Stop where
  | fail (e : Err)
  | help
  | version
  | ub
  deriving DecidableEq, Repr

/-- `SpecificationException`s (`arg.hpp:371-390`, `cmd_line.hpp:357-360`,
`optional_unlabeled_tracker.hpp:41-44`). -/
inductive SpecErr where
  | longFlag | badFlag | badName | duplicate | afterOptional
  deriving DecidableEq, Repr

/-- The visitors installed by `CmdLine` itself (`help_visitor.hpp:58`, `version_visitor.hpp:58`,
`ignore_rest_visitor.hpp:42`); `none` is a null pointer. -/
inductive Visitor where
  | none | help | version | ignore
  deriving DecidableEq, Repr

/-- Result of reading a value from a text (`value_arg.hpp:76-105`, `multi_arg.hpp:77-110`).
`nothing`: no error, but nothing was read either. -/
inductive Ext (V : Type _) where
  | ok (v : V)
  | nothing
  | failure
  | tooMany
  deriving DecidableEq, Repr

/-- The value part of an argument object: `ValueArg`, `MultiArg`, `SwitchArg`,
`MultiSwitchArg`. (`_value`, `_values`: `value_arg.hpp:165`, `multi_arg.hpp:166`,
`switch_arg.hpp:32-105`, `multi_switch_arg.hpp:30-110`.) -/
inductive Slot (V : Type _) where
  | value (v : V)
  | multi (vs : List V)
  | switch (b : Bool)
  | multiSwitch (n : Int)
  deriving DecidableEq, Repr

/-- An argument object (`arg.hpp:52-122`).  `unlabeled` marks `UnlabeledValueArg` and
`UnlabeledMultiArg`.  `ext` is the `ValueExtractor` of its type and `constraint` its
`Constraint`. -/
structure Arg (V : Type _) where
  id : Nat
  flag : Str
  name : Str
  desc : Str
  required : Bool
  requireLabel : Str
  visitor : Visitor
  unlabeled : Bool
  ext : Str → Ext V
  constraint : Option (V → Bool)
  alreadySet : Bool
  xorSet : Bool
  allowMore : Bool
  slot : Slot V

variable {V : Type _}

/-- `Arg::blankChar`, `flagStartChar`, `flagStartString`, `nameStartString`, `ignoreNameString`
(`arg.hpp:182-204`). -/
def blankChar : Char := '*'
/-- `Arg::flagStartChar` (`arg.hpp:187`). -/
def flagStart : Char := '-'
/-- `Arg::flagStartString` (`arg.hpp:193`). -/
def flagStartString : Str := ['-']
/-- `Arg::nameStartString` (`arg.hpp:199`). -/
def nameStartString : Str := ['-', '-']
/-- `Arg::ignoreNameString` (`arg.hpp:204`). -/
def ignoreName : Str := "ignore_rest".toList

/-! ## Reading values -/

/-- `ValueExtractor<T>::extractValue` (`value_arg.hpp:76-105`): keep reading with `>>` while the
stream is good and not at its end.  `rd` is one `is >> value` on a good stream that is not at its
end: `none` if it fails, otherwise the value, what is left, and whether the end was reached while
reading.  `n` counts the values read; fuel bounds the loop by the number of characters. -/
def extractLoop (rd : Str → Option (V × Str × Bool)) : Nat → Str → Option V → Nat → Ext V
  | 0, _, _, _ => .failure
  | fuel + 1, s, last, n =>
    match s with
    | [] =>
      match last with
      | none => .nothing
      | some v => if n > 1 then .tooMany else .ok v
    | _ =>
      match rd s with
      | none => .failure
      | some (v, rest, eof) =>
        if eof then (if n + 1 > 1 then .tooMany else .ok v)
        else extractLoop rd fuel rest (some v) (n + 1)

/-- The generic extractor. (`value_arg.hpp:76-105`, `multi_arg.hpp:77-110`.) -/
def extractWith (rd : Str → Option (V × Str × Bool)) (s : Str) : Ext V :=
  extractLoop rd (s.length + 1) s none 0

/-- `ValueExtractor<std::string>::extractValue` (`value_arg.hpp:138-142`,
`multi_arg.hpp:144-148`): the text itself. -/
def extractString (s : Str) : Ext Str := .ok s

/-- White space skipped by `operator>>` in the "C" locale. Standard library, called from
`value_arg.hpp:91` and `multi_arg.hpp:94`. -/
def isSpace (c : Char) : Bool :=
  c = ' ' || c = '\t' || c = '\n' || c = '\x0b' || c = '\x0c' || c = '\r'

/-- The optional sign of a number: is it `-`, and what follows. Standard library, called from
`value_arg.hpp:91` and `multi_arg.hpp:94`. -/
def splitSign : Str → Bool × Str
  | '-' :: t => (true, t)
  | '+' :: t => (false, t)
  | t => (false, t)

/-- One `is >> int` of the C++ standard library: skip white space, an optional sign, decimal
digits; fails if there are no digits or the number does not fit in 32 bits.  (Standard library,
not in `/repo`; modelled from the standard, `[facet.num.get.virtuals]`.) -/
def readInt (s : Str) : Option (Int × Str × Bool) :=
  let s1 := s.dropWhile isSpace
  let neg := (splitSign s1).1
  let s2 := (splitSign s1).2
  let ds := s2.takeWhile Char.isDigit
  let rest := s2.dropWhile Char.isDigit
  let n : Int := Nat.ofDigitChars 10 ds 0
  let v := if neg then -n else n
  if ds = [] then none
  else if v < -(2 ^ 31) ∨ 2 ^ 31 ≤ v then none
  else some (v, rest, rest.isEmpty)

/-- `ValueExtractor<int>`. (`value_arg.hpp:53-106`, `multi_arg.hpp:53-111`.) -/
def extractInt : Str → Ext Int := extractWith readInt

/-- One `is >> char`: the first character that is not white space; never notices the end unless
there is no such character. Standard library, called from `value_arg.hpp:91` and
`multi_arg.hpp:94`. -/
def readChar (s : Str) : Option (Char × Str × Bool) :=
  match s.dropWhile isSpace with
  | [] => none
  | c :: rest => some (c, rest, false)

/-- `ValueExtractor<char>`. (`value_arg.hpp:53-106`, `multi_arg.hpp:53-111`.) -/
def extractChar : Str → Ext Char := extractWith readChar

/-- `ValuesConstraint::check` (`values_constraint.hpp:112-118`). -/
def valuesConstraint [DecidableEq V] (allowed : List V) (v : V) : Bool := allowed.contains v

/-- `_constraint == NULL || _constraint->check(value)` (`value_arg.hpp:502-503`,
`multi_arg.hpp:501-502`). -/
def constraintOk (c : Option (V → Bool)) (v : V) : Bool :=
  match c with
  | none => true
  | some f => f v

/-- `ValueArg::_extractValue` and `MultiArg::_extractValue` (`value_arg.hpp:487-508`,
`multi_arg.hpp:487-507`).  If nothing was read a `ValueArg` keeps its value, while a `MultiArg`
appends its uninitialised temporary (undefined behaviour). -/
def extractValue (a : Arg V) (s : Str) : Except Stop (Arg V) :=
  match a.ext s with
  | .failure => .error (.fail .unreadable)
  | .tooMany => .error (.fail .tooMany)
  | .ok v =>
    match a.slot with
    | .value _ =>
      if constraintOk a.constraint v then .ok { a with slot := .value v }
      else .error (.fail .constraint)
    | .multi vs =>
      if constraintOk a.constraint v then .ok { a with slot := .multi (vs ++ [v]) }
      else .error (.fail .constraint)
    | _ => .ok a
  | .nothing =>
    match a.slot with
    | .value v => if constraintOk a.constraint v then .ok a else .error (.fail .constraint)
    | .multi _ => .error .ub
    | _ => .ok a

/-! ## Declaring arguments -/

/-- The checks of `Arg::Arg` (`arg.hpp:371-390`).  (A name contains `"--"` or `"-"` iff it
contains the character `-`.) -/
def argCtor (flag name : Str) : Except SpecErr Unit :=
  if flag.length > 1 then .error .longFlag
  else if name ≠ ignoreName ∧ (flag = flagStartString ∨ flag = nameStartString ∨ flag = [' ']) then
    .error .badFlag
  else if name.contains '-' ∨ name.contains ' ' then .error .badName
  else .ok ()

/-- `Arg::getDescription` (`arg.hpp:448-459`). -/
def getDescription (a : Arg V) : Str :=
  if a.required then ['('] ++ a.requireLabel ++ ")  ".toList ++ a.desc else a.desc

/-- `operator==`: `Arg` (`arg.hpp:440-446`), `UnlabeledValueArg` and `UnlabeledMultiArg`
(`unlabeled_value_arg.hpp:319-325`, `unlabeled_multi_arg.hpp:279-285`). -/
def same (a b : Arg V) : Bool :=
  if a.unlabeled then decide (a.name = b.name) || decide (a.desc = getDescription b)
  else (decide (a.flag ≠ []) && decide (a.flag = b.flag)) || decide (a.name = b.name)

/-- `isRequired`: `Arg` (`arg.hpp:465`), `MultiArg` (`multi_arg.hpp:472-484`). -/
def isRequired (a : Arg V) : Bool :=
  match a.slot with
  | .multi vs => a.required && decide (vs.length ≤ 1)
  | _ => a.required

/-- `isSet` (`arg.hpp:469-475`). -/
def isSet (a : Arg V) : Bool := a.alreadySet && !a.xorSet

/-- A `CmdLine` (`cmd_line.hpp:57-90`) with the two static variables of `Arg` (delimiter and
ignore-rest, `arg.hpp:44,50`) and the one of `OptionalUnlabeledTracker`.  `xors` holds the
identities of the members of the exclusive groups. -/
structure T (V : Type _) where
  args : List (Arg V)
  xors : List (List Nat)
  numRequired : Nat
  delim : Char
  ignoreRest : Bool
  optionalSeen : Bool

/-- `CmdLine::add` (`cmd_line.hpp:354-366`) with `addToList` (`arg.hpp:558-561`,
`unlabeled_value_arg.hpp:328-331`, `unlabeled_multi_arg.hpp:288-291`). -/
def add (c : T V) (a : Arg V) : Except SpecErr (T V) :=
  if c.args.any (same a) then .error .duplicate
  else .ok { c with
    args := if a.unlabeled then c.args ++ [a] else a :: c.args
    numRequired := if isRequired a then c.numRequired + 1 else c.numRequired }

/-- `CmdLine::xorAdd` (`cmd_line.hpp:328-339`). -/
def addAll (c : T V) : List (Arg V) → Except SpecErr (T V)
  | [] => .ok c
  | a :: as =>
    match add c { a with required := true, requireLabel := "OR required".toList } with
    | .error e => .error e
    | .ok c' => addAll c' as

/-- `CmdLine::xorAdd` (`cmd_line.hpp:328-339`) with `XorHandler::add` (`xor_handler.hpp:89-92`). -/
def xorAdd (c : T V) (as : List (Arg V)) : Except SpecErr (T V) :=
  addAll { c with xors := c.xors ++ [as.map Arg.id] } as

/-- What the program declares: the constructor arguments of one of the six argument classes.
(`value_arg.hpp:350-410`, `multi_arg.hpp:324-389`, `switch_arg.hpp:108-127`,
`multi_switch_arg.hpp:112-131`, `unlabeled_value_arg.hpp:203-266`,
`unlabeled_multi_arg.hpp:178-233`.) -/
structure Decl (V : Type _) where
  flag : Str
  name : Str
  desc : Str
  required : Bool
  unlabeled : Bool
  ext : Str → Ext V
  constraint : Option (V → Bool)
  slot : Slot V

/-- Only `ValueArg` and `MultiArg` have an unlabeled version. (`unlabeled_value_arg.hpp:203-266`,
`unlabeled_multi_arg.hpp:178-233`.) -/
def Decl.isUnlabeled (d : Decl V) : Bool :=
  match d.slot with
  | .switch _ => false
  | .multiSwitch _ => false
  | _ => d.unlabeled

/-- The constructor of the argument (`value_arg.hpp:350-410`, `multi_arg.hpp:324-390`,
`switch_arg.hpp:108-127`, `multi_switch_arg.hpp:112-131`, `unlabeled_value_arg.hpp:203-266`,
`unlabeled_multi_arg.hpp:178-233`): switches are never required, unlabeled arguments have an empty
flag, multi arguments start empty. -/
def construct (d : Decl V) (id : Nat) : Arg V where
  id := id
  flag := if d.isUnlabeled then [] else d.flag
  name := d.name
  desc := d.desc
  required := match d.slot with
    | .switch _ => false
    | .multiSwitch _ => false
    | _ => d.required
  requireLabel := "required".toList
  visitor := .none
  unlabeled := d.isUnlabeled
  ext := d.ext
  constraint := d.constraint
  alreadySet := false
  xorSet := false
  allowMore := false
  slot := match d.slot with
    | .multi _ => .multi []
    | s => s

/-- `OptionalUnlabeledTracker::check` (`optional_unlabeled_tracker.hpp:39-48`), called with `true`
by `UnlabeledMultiArg`. -/
def trackerCheck (c : T V) (d : Decl V) : Except SpecErr (T V) :=
  if d.isUnlabeled then
    if c.optionalSeen then .error .afterOptional
    else .ok { c with optionalSeen := match d.slot with
      | .multi _ => false
      | _ => !d.required }
  else .ok c

/-- Construct an argument: `Arg::Arg`, then the tracker for unlabeled arguments.
(`arg.hpp:353-392`, `unlabeled_value_arg.hpp:203-266`, `unlabeled_multi_arg.hpp:178-233`.) -/
def newArg (c : T V) (d : Decl V) (id : Nat) : Except SpecErr (T V × Arg V) :=
  match argCtor (if d.isUnlabeled then [] else d.flag) d.name with
  | .error e => .error e
  | .ok () =>
    match trackerCheck c d with
    | .error e => .error e
    | .ok c' => .ok (c', construct d id)

/-- The description of `--ignore_rest` (`cmd_line.hpp:321`). -/
def ignoreDesc : Str := "Ignores the rest of the labeled arguments following this flag.".toList

/-- A switch of `_constructor`. (`cmd_line.hpp:294-325`.) -/
def builtin (id : Nat) (flag name desc : Str) (v : Visitor) : Arg V :=
  { id, flag, name, desc, required := false
    requireLabel := "required".toList
    visitor := v, unlabeled := false, ext := fun _ => .failure, constraint := none
    alreadySet := false, xorSet := false, allowMore := false, slot := .switch false }

/-- `CmdLine::CmdLine` and `_constructor` (`cmd_line.hpp:257-326`): the switches `-h/--help`,
`--version` and `--/--ignore_rest`, the last one in front.  Identities 0, 1, 2 are theirs. -/
def new (delim : Char) (helpAndVersion : Bool) : T V where
  args := if helpAndVersion then
      [builtin 2 flagStartString ignoreName ignoreDesc .ignore,
       builtin 1 [] "version".toList "Displays version information and exits.".toList .version,
       builtin 0 ['h'] "help".toList "Displays usage information and exits.".toList .help]
    else [builtin 2 flagStartString ignoreName ignoreDesc .ignore]
  xors := []
  numRequired := 0
  delim := delim
  ignoreRest := false
  optionalSeen := false

/-- One declaration statement of the program: an argument added on its own, or an exclusive
group. (`cmd_line.hpp:328-366`.) -/
inductive Stmt (V : Type _) where
  | one (d : Decl V)
  | xor (ds : List (Decl V))

/-- Construct a list of arguments with consecutive identities. (The constructors cited at
`newArg`, `arg.hpp:353-392`.) -/
def newArgs (c : T V) : List (Decl V) → Nat → Except SpecErr (T V × List (Arg V))
  | [], _ => .ok (c, [])
  | d :: ds, id =>
    match newArg c d id with
    | .error e => .error e
    | .ok (c', a) =>
      match newArgs c' ds (id + 1) with
      | .error e => .error e
      | .ok (c'', as) => .ok (c'', a :: as)

/-- A whole program of declarations; `next` is the first unused identity.
(`cmd_line.hpp:328-366`.) -/
def declare (c : T V) : List (Stmt V) → Nat → Except SpecErr (T V)
  | [], _ => .ok c
  | .one d :: ss, next =>
    match newArg c d next with
    | .error e => .error e
    | .ok (c', a) =>
      match add c' a with
      | .error e => .error e
      | .ok c'' => declare c'' ss (next + 1)
  | .xor ds :: ss, next =>
    match newArgs c ds next with
    | .error e => .error e
    | .ok (c', as) =>
      match xorAdd c' as with
      | .error e => .error e
      | .ok c'' => declare c'' ss (next + ds.length)

/-! ## Parsing -/

/-- `argMatches` (`arg.hpp:484-491`). -/
def argMatches (a : Arg V) (s : Str) : Bool :=
  (decide (s = flagStartString ++ a.flag) && decide (a.flag ≠ [])) ||
    decide (s = nameStartString ++ a.name)

/-- `_hasBlanks` (`arg.hpp:535-542`). -/
def hasBlanks (s : Str) : Bool := s.tail.contains blankChar

/-- Position of the first delimiter, or 0 (`arg.hpp:516-522`). -/
def delimPos (d : Char) (s : Str) : Nat :=
  match s.findIdx? (· = d) with
  | none => 0
  | some i => i

/-- `trimFlag` (`arg.hpp:514-530`): flag and value. -/
def trimFlag (d : Char) (s : Str) : Str × Str :=
  if delimPos d s > 1 then (s.take (delimPos d s), s.drop (delimPos d s + 1)) else (s, [])

/-- Blank the first occurrence of `f` (`switch_arg.hpp:144-156`). -/
def blankFirst (f : Char) : Str → Option Str
  | [] => none
  | c :: cs => if c = f then some (blankChar :: cs) else (blankFirst f cs).map (c :: ·)

/-- `combinedSwitchesMatch` (`switch_arg.hpp:131-157`): the changed text if it matches. -/
def combinedMatch (a : Arg V) (s : Str) : Option Str :=
  match s with
  | [] => none
  | c :: cs =>
    if c ≠ flagStart then none
    else if s.take 2 = nameStartString then none
    else (blankFirst (a.flag.headD '\x00') cs).map (c :: ·)

/-- `_checkWithVisitor` (`arg.hpp:505-509`): the new value of the ignore-rest variable. -/
def visit (a : Arg V) (ign : Bool) : Except Stop Bool :=
  match a.visitor with
  | .none => .ok ign
  | .help => .error .help
  | .version => .error .version
  | .ignore => .ok true

/-- Result of `processArg`: whether it matched, the argument afterwards, the current text
afterwards, whether the next text was consumed, and the ignore-rest variable. (`arg.hpp:219`: the
return value and the two reference parameters.) -/
structure Step (V : Type _) where
  matched : Bool
  arg : Arg V
  tok : Str
  skip : Bool
  ign : Bool

/-- Read the value from the delimiter part or from the next text
(`value_arg.hpp:441-456`, `multi_arg.hpp:410-426`). -/
def takeValue (d : Char) (a : Arg V) (value : Str) (next : Option Str) :
    Except Stop (Arg V × Bool) :=
  if d ≠ ' ' ∧ value = [] then .error (.fail .noDelimiter)
  else if value = [] then
    match next with
    | some s => (extractValue a s).map (·, true)
    | none => .error (.fail .missingValue)
  else (extractValue a value).map (·, false)

/-- `ValueArg::processArg` (`value_arg.hpp:423-464`). -/
def processValue (d : Char) (ign : Bool) (tok : Str) (next : Option Str) (a : Arg V) :
    Except Stop (Step V) :=
  if ign then .ok ⟨false, a, tok, false, ign⟩
  else if hasBlanks tok then .ok ⟨false, a, tok, false, ign⟩
  else if argMatches a (trimFlag d tok).1 then
    if a.alreadySet then .error (.fail .alreadySet)
    else
      match takeValue d a (trimFlag d tok).2 next with
      | .error e => .error e
      | .ok (a', skip) =>
        match visit a' ign with
        | .error e => .error e
        | .ok ign' => .ok ⟨true, { a' with alreadySet := true }, tok, skip, ign'⟩
  else .ok ⟨false, a, tok, false, ign⟩

/-- `MultiArg::processArg` (`multi_arg.hpp:395-443`). -/
def processMulti (d : Char) (ign : Bool) (tok : Str) (next : Option Str) (a : Arg V) :
    Except Stop (Step V) :=
  if ign then .ok ⟨false, a, tok, false, ign⟩
  else if hasBlanks tok then .ok ⟨false, a, tok, false, ign⟩
  else if argMatches a (trimFlag d tok).1 then
    match takeValue d a (trimFlag d tok).2 next with
    | .error e => .error e
    | .ok (a', skip) =>
      match visit a' ign with
      | .error e => .error e
      | .ok ign' => .ok ⟨true, { a' with alreadySet := true }, tok, skip, ign'⟩
  else .ok ⟨false, a, tok, false, ign⟩

/-- Toggle a switch (`switch_arg.hpp:177-182`). -/
def toggle (a : Arg V) : Arg V :=
  { a with
    alreadySet := true
    slot := match a.slot with
      | .switch b => .switch (!b)
      | s => s }

/-- `SwitchArg::processArg` (`switch_arg.hpp:160-190`).  `combinedSwitchesMatch` changes the text
each time it matches. -/
def processSwitch (ign : Bool) (tok : Str) (a : Arg V) : Except Stop (Step V) :=
  if ign then .ok ⟨false, a, tok, false, ign⟩
  else if argMatches a tok then
    if a.alreadySet then .error (.fail .alreadySet)
    else
      match visit a ign with
      | .error e => .error e
      | .ok ign' => .ok ⟨true, toggle a, tok, false, ign'⟩
  else
    match combinedMatch a tok with
    | none => .ok ⟨false, a, tok, false, ign⟩
    | some tok1 =>
      if argMatches a tok1 then
        if a.alreadySet then .error (.fail .alreadySet)
        else
          match visit a ign with
          | .error e => .error e
          | .ok ign' => .ok ⟨true, toggle a, tok1, false, ign'⟩
      else if a.alreadySet ∨ (combinedMatch a tok1).isSome then .error (.fail .alreadySet)
      else
        match visit a ign with
        | .error e => .error e
        | .ok ign' => .ok ⟨false, toggle a, tok1, false, ign'⟩

/-- Count one more (`multi_switch_arg.hpp:143-146,155-158`). -/
def bump (a : Arg V) (k : Nat) : Arg V :=
  { a with
    alreadySet := true
    slot := match a.slot with
      | .multiSwitch n => .multiSwitch (n + k)
      | s => s }

/-- The loop blanking further occurrences (`multi_switch_arg.hpp:161-162`): the text left and the
number of occurrences.  Each round removes one occurrence unless the flag is the blank character
itself, in which case the loop never ends; `fuel` is the length of the text, so running out of it
means exactly that (`none`). -/
def blankAll (a : Arg V) : Nat → Str → Option (Str × Nat)
  | 0, s =>
    match combinedMatch a s with
    | none => some (s, 0)
    | some _ => none
  | fuel + 1, s =>
    match combinedMatch a s with
    | none => some (s, 0)
    | some s' => (blankAll a fuel s').map fun r => (r.1, r.2 + 1)

/-- `MultiSwitchArg::processArg` (`multi_switch_arg.hpp:135-170`).  An endless loop is
`Stop.ub`. -/
def processMultiSwitch (ign : Bool) (tok : Str) (a : Arg V) : Except Stop (Step V) :=
  if ign then .ok ⟨false, a, tok, false, ign⟩
  else if argMatches a tok then
    match visit a ign with
    | .error e => .error e
    | .ok ign' => .ok ⟨true, bump a 1, tok, false, ign'⟩
  else
    match combinedMatch a tok with
    | none => .ok ⟨false, a, tok, false, ign⟩
    | some tok1 =>
      match blankAll a tok1.length tok1 with
      | none => .error .ub
      | some (tok2, k) =>
        match visit a ign with
        | .error e => .error e
        | .ok ign' => .ok ⟨false, bump a (k + 1), tok2, false, ign'⟩

/-- Is this a `MultiArg` (or an `UnlabeledMultiArg`)?. (`multi_arg.hpp:158-159`,
`unlabeled_multi_arg.hpp:30-40`.) -/
def isMulti (a : Arg V) : Bool :=
  match a.slot with
  | .multi _ => true
  | _ => false

/-- `UnlabeledValueArg::processArg` (`unlabeled_value_arg.hpp:272-286`) and
`UnlabeledMultiArg::processArg` (`unlabeled_multi_arg.hpp:237-260`). -/
def processUnlabeled (ign : Bool) (tok : Str) (a : Arg V) : Except Stop (Step V) :=
  if isMulti a = false ∧ a.alreadySet = true then .ok ⟨false, a, tok, false, ign⟩
  else if hasBlanks tok then .ok ⟨false, a, tok, false, ign⟩
  else
    match extractValue a tok with
    | .error e => .error e
    | .ok a' => .ok ⟨true, { a' with alreadySet := true }, tok, false, ign⟩

/-- The virtual function `processArg`. (Declared at `arg.hpp:219`.) -/
def processArg (d : Char) (ign : Bool) (tok : Str) (next : Option Str) (a : Arg V) :
    Except Stop (Step V) :=
  if a.unlabeled then processUnlabeled ign tok a
  else
    match a.slot with
    | .value _ => processValue d ign tok next a
    | .multi _ => processMulti d ign tok next a
    | .switch _ => processSwitch ign tok a
    | .multiSwitch _ => processMultiSwitch ign tok a

/-- Result of the inner loop: the arguments, the identity of the one that matched, the text, whether
the next text was consumed, and the ignore-rest variable. (`cmd_line.hpp:381-392`.) -/
structure Scan (V : Type _) where
  args : List (Arg V)
  hit : Option Nat
  tok : Str
  skip : Bool
  ign : Bool

/-- The inner loop of `parse` over the argument list (`cmd_line.hpp:384-392`). -/
def scan (d : Char) (ign : Bool) (tok : Str) (next : Option Str) :
    List (Arg V) → Except Stop (Scan V)
  | [] => .ok ⟨[], none, tok, false, ign⟩
  | a :: as =>
    match processArg d ign tok next a with
    | .error e => .error e
    | .ok r =>
      if r.matched then .ok ⟨r.arg :: as, some a.id, r.tok, r.skip, r.ign⟩
      else
        match scan d r.ign r.tok next as with
        | .error e => .error e
        | .ok q => .ok ⟨r.arg :: q.args, q.hit, q.tok, q.skip, q.ign⟩

/-- What `XorHandler::check` does to the members of the group (`xor_handler.hpp:105-112`,
`arg.hpp:549-553`).  `MultiArg::allowMore` is the only one that ever returns `true`
(`multi_arg.hpp:510-515`, `arg.hpp:563-566`); it remembers that it was asked. -/
def markGroup (g : List Nat) (id : Nat) (b : Arg V) : Arg V :=
  if b.id = id then (if isMulti b then { b with allowMore := true } else b)
  else if b.id ∈ g then { b with alreadySet := true, xorSet := true }
  else b

/-- `XorHandler::check` (`xor_handler.hpp:94-123`): the arguments afterwards and what is added to
`requiredCount`. -/
def check (xors : List (List Nat)) (args : List (Arg V)) (id : Nat) : List (Arg V) × Nat :=
  match xors.find? (fun g => decide (id ∈ g)) with
  | some g =>
    (args.map (markGroup g id),
     if args.any (fun b => decide (b.id = id) && isMulti b && b.allowMore) then 0 else g.length)
  | none => (args, if args.any (fun b => decide (b.id = id) && isRequired b) then 1 else 0)

/-- `_emptyCombined` (`cmd_line.hpp:415-425`). -/
def emptyCombined (s : Str) : Bool :=
  match s with
  | [] => false
  | c :: cs => decide (c = flagStart) && cs.all (fun x => decide (x = blankChar))

/-- The outer loop of `parse` (`cmd_line.hpp:381-402`).  `skip` says that the text at the head was
already consumed as a value; `count` is `requiredCount`. -/
def loop (xors : List (List Nat)) (d : Char) :
    Bool → List Str → List (Arg V) → Bool → Nat → Except Stop (List (Arg V) × Bool × Nat)
  | _, [], args, ign, count => .ok (args, ign, count)
  | true, _ :: toks, args, ign, count => loop xors d false toks args ign count
  | false, tok :: toks, args, ign, count =>
    match scan d ign tok toks.head? args with
    | .error e => .error e
    | .ok r =>
      match r.hit with
      | some id =>
        loop xors d r.skip toks (check xors r.args id).1 r.ign (count + (check xors r.args id).2)
      | none =>
        if emptyCombined r.tok then loop xors d false toks r.args r.ign count
        else if r.ign then loop xors d false toks r.args r.ign count
        else .error (.fail .noMatch)

/-- `CmdLine::parse` (`cmd_line.hpp:368-413`) on the texts after the program name. -/
def parse (c : T V) (argv : List Str) : Except Stop (T V) :=
  match loop c.xors c.delim false argv c.args c.ignoreRest 0 with
  | .error e => .error e
  | .ok (args, ign, count) =>
    if count < c.numRequired then .error (.fail .requiredMissing)
    else if count > c.numRequired then .error (.fail .tooManyArgs)
    else .ok { c with args := args, ignoreRest := ign }

end Ecl.CmdLine
