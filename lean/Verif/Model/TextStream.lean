import Verif.Model.Converters

/-!
# Model of `ecl_streams`: text streams

The device is a text: a read hands out the next character, or nothing at its end (the call returns
0); read *errors* (negative results) and the debug check that the device is open are left out.
Every extraction is a function of the variable's old value and the unread text; it gives the
variable's new value, the error flag the stream reports afterwards, and the text left unread.
-/
set_option autoImplicit false

namespace Ecl.TextStream

/-- An extraction: the variable afterwards, the stream's error flag, the unread text.
(`input_text_stream.hpp:165-717`.) -/
structure Got (α : Type _) where
  val : α
  err : Flag
  rest : List Char
  deriving DecidableEq, Repr

/-- The integral types that can be streamed. (`input_text_stream.hpp:232-386`,
`output_text_stream.hpp:200-309`.) -/
inductive ITy where
  | uchar | short | ushort | int | uint | long | ulong | llong | ullong
  deriving DecidableEq, Repr

namespace ITy

/-- Width in bits (LP64). -/
def bits : ITy → Nat
  | uchar => 8
  | short | ushort => 16
  | int | uint => 32
  | long | ulong | llong | ullong => 64

/-- (`input_text_stream.hpp:570-646` asks `is_signed` of the type.) -/
def signed : ITy → Bool
  | short | int | long | llong => true
  | _ => false

/-- `ecl::numeric_limits<Number>::maximum`, the C limit. (Used at
`input_text_stream.hpp:518-646`.) -/
def max (t : ITy) : Nat := if t.signed then 2 ^ (t.bits - 1) - 1 else 2 ^ t.bits - 1

/-- Conversion of an integer to the type (modulo `2^w`). -/
def wrap (t : ITy) (v : Int) : Int :=
  let u := v % 2 ^ t.bits
  if t.signed ∧ 2 ^ (t.bits - 1) ≤ u then u - 2 ^ t.bits else u

end ITy

/-! ## Input -/

/-- `( c == ' ' ) || ( c == '\n' )`. (`input_text_stream.hpp:502-512`, `205-211`.) -/
def blank (c : Char) : Bool := c = ' ' || c = '\n'

/-- `skipLeadingWhiteSpace` (`input_text_stream.hpp:502-512`): the first character that is neither
a space nor a newline; `none` when the text ends before. -/
def skip : List Char → Option (Char × List Char)
  | [] => none
  | c :: cs => if blank c then skip cs else some (c, cs)

/-- `>> char` (`input_text_stream.hpp:165-184`). -/
def getChar (raw : Bool) (old : Char) (inp : List Char) : Got Char :=
  if raw then
    match inp with
    | [] => ⟨old, .readError, []⟩
    | c :: cs => ⟨c, .noError, cs⟩
  else
    match skip inp with
    | none => ⟨(inp.getLast?).getD old, .readError, []⟩   -- the reads went into `c` itself
    | some (c, cs) => ⟨c, .noError, cs⟩

/-- The loop of `>> string` (`input_text_stream.hpp:205-211`) entered with the character `c`. -/
def wordLoop (c : Char) : List Char → List Char × List Char
  | [] => ([c], [])
  | d :: ds => if blank d then ([c], ds) else
    let r := wordLoop d ds
    (c :: r.1, r.2)

/-- `>> string` (`input_text_stream.hpp:197-222`). -/
def getWord (old : List Char) (inp : List Char) : Got (List Char) :=
  match skip inp with
  | none => ⟨old, .readError, []⟩
  | some (c, cs) =>
    let r := wordLoop c cs
    ⟨r.1, .noError, r.2⟩

/-- `>> bool` (`input_text_stream.hpp:435-456`). -/
def getBool (old : Bool) (inp : List Char) : Got Bool :=
  let r := getWord [] inp
  if r.err ≠ .noError then ⟨old, r.err, r.rest⟩
  else if r.val = "true".toList ∨ r.val = "TRUE".toList ∨ r.val = "True".toList then
    ⟨true, .noError, r.rest⟩
  else if r.val = "false".toList ∨ r.val = "FALSE".toList ∨ r.val = "False".toList then
    ⟨false, .noError, r.rest⟩
  else ⟨old, .conversionError, r.rest⟩

/-- `( c >= '0' ) && ( c <= '9')`. -/
def dig (c : Char) : Bool := '0'.toNat ≤ c.toNat && c.toNat ≤ '9'.toNat

/-- `c - '0'` for a digit. -/
def digVal (c : Char) : Nat := c.toNat - '0'.toNat

/-- The digit loop (`input_text_stream.hpp:615-627`) with room for `room` more digits, entered with
the character `c` already read.  The character that ends the loop has been consumed. -/
def digitLoop (c : Char) : List Char → Nat → List Char × List Char
  | rest, 0 => ([], rest)
  | [], _ + 1 => if dig c then ([c], []) else ([], [])
  | d :: ds, room + 1 =>
    if dig c then
      let r := digitLoop d ds room
      (c :: r.1, r.2)
    else ([], d :: ds)

/-- The conversion loop (`input_text_stream.hpp:632-642`); `none` is the out of range exit.
`number < ceiling = maximum/10` keeps `10*number + digit` within the type, so it is a natural
number. -/
def accum (ceiling : Nat) : Nat → List Char → Option Nat
  | n, [] => some n
  | n, c :: cs => if n < ceiling then accum ceiling (10 * n + digVal c) cs else none

/-- The digit loop of `parseHexInteger` (`input_text_stream.hpp:528-546`): reads until the text
ends, a character is no hex digit (it is consumed), or `room` digits have been read. -/
def hexLoop : List Char → Nat → List Nat × List Char
  | rest, 0 => ([], rest)
  | [], _ + 1 => ([], [])
  | c :: cs, room + 1 =>
    match Conv.hexDigit c with
    | some d => let r := hexLoop cs room; (d :: r.1, r.2)
    | none => ([], cs)

/-- Conversion to `short`. (`input_text_stream.hpp:552-560`.) -/
def toShort (v : Int) : Int := ITy.short.wrap v

/-- The conversion loop of `parseHexInteger` (`input_text_stream.hpp:552-560`): the accumulator is
a `short` and `ceiling` is `SHRT_MAX/10`, whatever the type read. -/
def hexAccum : Int → List Nat → Option Int
  | n, [] => some n
  | n, d :: ds => if n < 3276 then hexAccum (toShort (16 * n + d)) ds else none

/-- `parseHexInteger` (`input_text_stream.hpp:518-563`): the variable is zeroed first. -/
def parseHex (t : ITy) (inp : List Char) : Got Int :=
  let r := hexLoop inp 25
  if r.1 = [] then ⟨0, .readError, r.2⟩
  else
    match hexAccum 0 r.1 with
    | none => ⟨0, .outOfRange, r.2⟩
    | some n => ⟨t.wrap n, .noError, r.2⟩

/-- The second half of `getIntegerFromStream` (`input_text_stream.hpp:612-645`), entered with the
character `c` read last and the sign. -/
def finishInt (t : ITy) (sign : Int) (old : Int) (c : Char) (rest : List Char) : Got Int :=
  let r := digitLoop c rest 25
  if r.1 = [] then ⟨old, .conversionError, r.2⟩
  else
    match accum (t.max / 10) 0 r.1 with
    | none => ⟨old, .outOfRange, r.2⟩
    | some n => ⟨sign * n, .noError, r.2⟩

/-- `getIntegerFromStream` (`input_text_stream.hpp:570-646`) as called by the integer extractors
(`232-386`), which clear the error when it succeeds. -/
def getInt (t : ITy) (old : Int) (inp : List Char) : Got Int :=
  match skip inp with
  | none => ⟨old, .readError, []⟩
  | some (c, cs) =>
    if c = '-' then
      if t.signed then
        match cs with
        | [] => ⟨old, .readError, []⟩
        | d :: ds => finishInt t (-1) old d ds
      else finishInt t 1 old c cs
    else if c = '+' then
      match cs with
      | [] => ⟨old, .readError, []⟩
      | d :: ds => finishInt t 1 old d ds
    else if c = '0' then
      match cs with
      | [] => ⟨0, .noError, []⟩
      | d :: ds =>
        if blank d then ⟨0, .noError, ds⟩
        else if d = 'x' then parseHex t ds
        else finishInt t 1 old d ds
    else if c = 'x' then parseHex t cs
    else finishInt t 1 old c cs

/-- The digit loops of `getFloatFromStream` (`input_text_stream.hpp:671-681`, `692-702`), entered
with the character `c` read last: the digits counted, the last character and the rest.  A digit is
counted only when one more character could be read. -/
def fracLoop (c : Char) : List Char → Nat → List Char × Char × List Char
  | rest, 0 => ([], c, rest)
  | [], _ + 1 => ([], c, [])
  | d :: ds, room + 1 =>
    if dig c then
      let r := fracLoop d ds room
      (c :: r.1, r.2)
    else ([], c, d :: ds)

/-- The sum of the integral digits (`input_text_stream.hpp:682-684`).  Arithmetic is exact: the
rounding of `float`/`double` is not modelled. -/
def intSum : Rat → List Char → Rat
  | n, [] => n
  | n, c :: cs => intSum (10 * n + digVal c) cs

/-- The sum of the fractional digits (`input_text_stream.hpp:703-706`), with `0.1f` as `1/10`. -/
def fracSum : Rat → Rat → List Char → Rat
  | _, n, [] => n
  | mult, n, c :: cs => fracSum (mult / 10) (n + mult / 10 * digVal c) cs

/-- The part of `getFloatFromStream` after the sign (`input_text_stream.hpp:667-716`). -/
def finishFloat (sign old : Rat) (c : Char) (rest : List Char) : Got Rat :=
  let r := fracLoop c rest 25
  let n := intSum 0 r.1
  if r.2.1 = '.' then
    match r.2.2 with
    | [] => ⟨old, .readError, []⟩
    | d :: ds =>
      let q := fracLoop d ds 25
      if r.1.length + q.1.length = 0 then ⟨old, .conversionError, q.2.2⟩
      else ⟨sign * fracSum 1 n q.1, .noError, q.2.2⟩
  else if r.1.length = 0 then ⟨old, .conversionError, r.2.2⟩
  else ⟨sign * n, .noError, r.2.2⟩

/-- `getFloatFromStream` (`input_text_stream.hpp:648-717`) as called by `>> float`, `>> double`
(`397-423`). -/
def getFloat (old : Rat) (inp : List Char) : Got Rat :=
  match skip inp with
  | none => ⟨old, .readError, []⟩
  | some (c, cs) =>
    if c = '-' then
      match cs with
      | [] => ⟨old, .readError, []⟩
      | d :: ds => finishFloat (-1) old d ds
    else if c = '+' then
      match cs with
      | [] => ⟨old, .readError, []⟩
      | d :: ds => finishFloat 1 old d ds
    else finishFloat 1 old c cs

/-! ## Output -/

/-- An output stream: the converter's own buffer (`output_text_stream.hpp:93-97`, size 30) and the
text the device has been given. -/
structure Out where
  mem : List Char
  text : List Char
  deriving DecidableEq, Repr

/-- A fresh stream on an empty device (`output_text_stream.hpp:93-97`). -/
def Out.new : Outcome Out := do
  let b ← Conv.bufNew 30
  .ok ⟨b.1, []⟩

/-- `<< char` (`output_text_stream.hpp:158-163`). -/
def Out.putChar (o : Out) (c : Char) : Out := { o with text := o.text ++ [c] }

/-- `<< bool` (`output_text_stream.hpp:317-323`). -/
def Out.putBool (o : Out) (b : Bool) : Out :=
  { o with text := o.text ++ (if b then "true".toList else "false".toList) }

/-- `<< std::string` (`output_text_stream.hpp:187-192`). -/
def Out.putString (o : Out) (s : List Char) : Out := { o with text := o.text ++ s }

/-- The converter a type selects: the signed types go through `convertSignedIntegral` whose
negation happens in the promoted type; an `unsigned char` is promoted to `int` by overload
resolution (`output_text_stream.hpp:101-114`). -/
def convert (t : ITy) (mem : List Char) (i : Int) : Outcome (List Char × Option Nat) :=
  match t with
  | .uchar | .short | .int => Conv.bufSigned intMax mem 29 i
  | .long | .llong => Conv.bufSigned longMax mem 29 i
  | .ushort | .uint | .ulong | .ullong => Conv.bufUnsigned mem 29 i.toNat

/-- `<< integer` (`output_text_stream.hpp:200-309`): the C string the converter returns is written;
`strlen(NULL)` is undefined. -/
def Out.putInt (t : ITy) (o : Out) (i : Int) : Outcome Out := do
  let r ← convert t o.mem i
  match r.2 with
  | none => .ub
  | some p => .ok ⟨r.1, o.text ++ Conv.cstr r.1 p⟩

/-- `stream << i << ' '` for every integer of a list. (`output_text_stream.hpp:158-309`.) -/
def Out.putInts (t : ITy) (o : Out) : List Int → Outcome Out
  | [] => .ok o
  | i :: is => do
    let o ← o.putInt t i
    Out.putInts t (o.putChar ' ') is

/-- What is put into a stream with `<<` (`output_text_stream.hpp:158-323`). -/
inductive Piece where
  | integer (t : ITy) (i : Int)
  | char (c : Char)
  | bool (b : Bool)
  | string (s : List Char)
  deriving DecidableEq, Repr

/-- `stream << a << b << ...` (`output_text_stream.hpp:158-323`). -/
def Out.puts (o : Out) : List Piece → Outcome Out
  | [] => .ok o
  | .integer t i :: ps => do
    let o ← o.putInt t i
    Out.puts o ps
  | .char c :: ps => Out.puts (o.putChar c) ps
  | .bool b :: ps => Out.puts (o.putBool b) ps
  | .string s :: ps => Out.puts (o.putString s) ps

/-- `stream >> i` `n` times: the values and flags, and the unread text.
(`input_text_stream.hpp:570-646`.) -/
def getInts (t : ITy) (old : Int) : Nat → List Char → List (Int × Flag) × List Char
  | 0, inp => ([], inp)
  | n + 1, inp =>
    let g := getInt t old inp
    let r := getInts t g.val n g.rest
    ((g.val, g.err) :: r.1, r.2)

/-- `stream >> s` until the stream reports an error: the words read.  (`fuel` bounds the number of
calls.) (`input_text_stream.hpp:197-222`.) -/
def getWords : Nat → List Char → List (List Char)
  | 0, _ => []
  | fuel + 1, inp =>
    let g := getWord [] inp
    if g.err = .noError then g.val :: getWords fuel g.rest else []

end Ecl.TextStream
