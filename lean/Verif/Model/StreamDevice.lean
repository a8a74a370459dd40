import Verif.Model.TextStream

/-!
# Model of text streams over devices that pause and fail

As `Model/TextStream.lean`, but every `read` of the device gives a byte, nothing (the call returns 0: nothing came within the
time limit, or the end of the text) or fails (a negative result).  The device is the list of the results to come; at its end
there is nothing.  The check that the device is open (debug builds) is the subject of `checked`.
-/
set_option autoImplicit false

namespace Ecl.StreamDevice
open Ecl.TextStream

/-- The result of one `read(c)`. (The calls at `input_text_stream.hpp:165-717`.) -/
inductive Rd where
  | byte (c : Char)
  | nothing
  | failed
  deriving DecidableEq, Repr

/-- What the device will give, call by call (`input_text_stream.hpp:165-717`). -/
abbrev Dev := List Rd

/-- An extraction: the variable afterwards, the stream's error flag, the results to come.
(`input_text_stream.hpp:165-717`.) -/
structure Ext (α : Type _) where
  val : α
  err : Flag
  rest : Dev
  deriving DecidableEq, Repr

/-- `skipLeadingWhiteSpace` (`input_text_stream.hpp:502-512`): whether it succeeds, the variable `c`, the rest. -/
def skip (c : Char) : Dev → Bool × Char × Dev
  | [] => (false, c, [])
  | .byte d :: ds => if blank d then skip d ds else (true, d, ds)
  | .nothing :: ds => (false, c, ds)
  | .failed :: ds => (false, c, ds)

/-- `>> char` (`input_text_stream.hpp:165-184`). -/
def getChar (raw : Bool) (old : Char) (dev : Dev) : Ext Char :=
  if raw then
    match dev with
    | .byte c :: ds => ⟨c, .noError, ds⟩
    | _ => ⟨old, .readError, dev.tail⟩
  else
    let r := skip old dev
    ⟨r.2.1, if r.1 then .noError else .readError, r.2.2⟩

/-- The loop of `>> string` (`input_text_stream.hpp:205-211`). -/
def wordLoop (c : Char) : Dev → List Char × Dev
  | [] => ([c], [])
  | .byte d :: ds => if blank d then ([c], ds) else (c :: (wordLoop d ds).1, (wordLoop d ds).2)
  | .nothing :: ds => ([c], ds)
  | .failed :: ds => ([c], ds)

/-- `>> string` (`input_text_stream.hpp:197-222`): the error that the loop sets is overwritten after it (`:212`). -/
def getWord (old : List Char) (dev : Dev) : Ext (List Char) :=
  let r := skip ' ' dev
  if r.1 then ⟨(wordLoop r.2.1 r.2.2).1, .noError, (wordLoop r.2.1 r.2.2).2⟩ else ⟨old, .readError, r.2.2⟩

/-- The digit loop (`input_text_stream.hpp:615-627`); `none`: a read failed. -/
def digitLoop (c : Char) : Dev → Nat → Option (List Char) × Dev
  | dev, 0 => (some [], dev)
  | [], _ + 1 => (some (if dig c then [c] else []), [])
  | .byte d :: ds, room + 1 =>
    if dig c then ((digitLoop d ds room).1.map (c :: ·), (digitLoop d ds room).2) else (some [], .byte d :: ds)
  | .nothing :: ds, _ + 1 => if dig c then (some [c], ds) else (some [], .nothing :: ds)
  | .failed :: ds, _ + 1 => if dig c then (none, ds) else (some [], .failed :: ds)

/-- The digit loop of `parseHexInteger` (`input_text_stream.hpp:528-546`). -/
def hexLoop : Dev → Nat → Option (List Nat) × Dev
  | dev, 0 => (some [], dev)
  | [], _ + 1 => (some [], [])
  | .byte c :: ds, room + 1 =>
    match Conv.hexDigit c with
    | some d => ((hexLoop ds room).1.map (d :: ·), (hexLoop ds room).2)
    | none => (some [], ds)
  | .nothing :: ds, _ + 1 => (some [], ds)
  | .failed :: ds, _ + 1 => (none, ds)

/-- `parseHexInteger` (`input_text_stream.hpp:518-563`). -/
def parseHex (t : ITy) (dev : Dev) : Ext Int :=
  match hexLoop dev 25 with
  | (none, rest) => ⟨0, .readError, rest⟩
  | (some ds, rest) =>
    if ds = [] then ⟨0, .readError, rest⟩
    else
      match hexAccum 0 ds with
      | none => ⟨0, .outOfRange, rest⟩
      | some n => ⟨t.wrap n, .noError, rest⟩

/-- The second half of `getIntegerFromStream` (`input_text_stream.hpp:612-645`). -/
def finishInt (t : ITy) (sign : Int) (old : Int) (c : Char) (dev : Dev) : Ext Int :=
  match digitLoop c dev 25 with
  | (none, rest) => ⟨old, .readError, rest⟩
  | (some ds, rest) =>
    if ds = [] then ⟨old, .conversionError, rest⟩
    else
      match accum (t.max / 10) 0 ds with
      | none => ⟨old, .outOfRange, rest⟩
      | some n => ⟨sign * n, .noError, rest⟩

/-- The read after a sign (`input_text_stream.hpp:585-588`, `591-594`, `663`, `665`). -/
def afterSign {α : Type _} (old : α) (f : Char → Dev → Ext α) : Dev → Ext α
  | .byte d :: ds => f d ds
  | ds => ⟨old, .readError, ds.tail⟩

/-- `getIntegerFromStream` (`input_text_stream.hpp:570-646`). -/
def getInt (t : ITy) (old : Int) (dev : Dev) : Ext Int :=
  let r := skip ' ' dev
  if r.1 then
    let c := r.2.1
    let ds := r.2.2
    if c = '-' then
      if t.signed then afterSign old (finishInt t (-1) old) ds
      else finishInt t 1 old c ds
    else if c = '+' then afterSign old (finishInt t 1 old) ds
    else if c = '0' then
      match ds with
      | [] => ⟨0, .noError, []⟩
      | .nothing :: ds => ⟨0, .noError, ds⟩
      | .failed :: ds => ⟨old, .readError, ds⟩
      | .byte d :: ds =>
        if blank d then ⟨0, .noError, ds⟩
        else if d = 'x' then parseHex t ds
        else finishInt t 1 old d ds
    else if c = 'x' then parseHex t ds
    else finishInt t 1 old c ds
  else ⟨old, .readError, r.2.2⟩

/-- The digit loops of `getFloatFromStream` (`input_text_stream.hpp:671-681`, `692-702`): the digits counted and the last
character. -/
def fracLoop (c : Char) : Dev → Nat → Option (List Char × Char) × Dev
  | dev, 0 => (some ([], c), dev)
  | [], _ + 1 => (some ([], c), [])
  | .byte d :: ds, room + 1 =>
    if dig c then ((fracLoop d ds room).1.map fun r => (c :: r.1, r.2), (fracLoop d ds room).2)
    else (some ([], c), .byte d :: ds)
  | .nothing :: ds, _ + 1 => if dig c then (some ([], c), ds) else (some ([], c), .nothing :: ds)
  | .failed :: ds, _ + 1 => if dig c then (none, ds) else (some ([], c), .failed :: ds)

/-- The part of `getFloatFromStream` after the sign (`input_text_stream.hpp:667-716`). -/
def finishFloat (sign old : Rat) (c : Char) (dev : Dev) : Ext Rat :=
  match fracLoop c dev 25 with
  | (none, rest) => ⟨old, .readError, rest⟩
  | (some (ds, e), rest) =>
    if e = '.' then
      match rest with
      | .byte d :: rest =>
        match fracLoop d rest 25 with
        | (none, rest) => ⟨old, .readError, rest⟩
        | (some (qs, _), rest) =>
          if ds.length + qs.length = 0 then ⟨old, .conversionError, rest⟩
          else ⟨sign * fracSum 1 (intSum 0 ds) qs, .noError, rest⟩
      | _ => ⟨old, .readError, rest.tail⟩
    else if ds.length = 0 then ⟨old, .conversionError, rest⟩
    else ⟨sign * intSum 0 ds, .noError, rest⟩

/-- `getFloatFromStream` (`input_text_stream.hpp:648-717`). -/
def getFloat (old : Rat) (dev : Dev) : Ext Rat :=
  let r := skip ' ' dev
  if r.1 then
    if r.2.1 = '-' then afterSign old (finishFloat (-1) old) r.2.2
    else if r.2.1 = '+' then afterSign old (finishFloat 1 old) r.2.2
    else finishFloat 1 old r.2.1 r.2.2
  else ⟨old, .readError, r.2.2⟩

/-- `>> bool` (`input_text_stream.hpp:435-456`): the check of the device in the inner `>>` repeats the outer one. -/
def getBool (old : Bool) (dev : Dev) : Ext Bool :=
  let r := getWord [] dev
  if r.err ≠ .noError then ⟨old, r.err, r.rest⟩
  else if r.val = "true".toList ∨ r.val = "TRUE".toList ∨ r.val = "True".toList then
    ⟨true, .noError, r.rest⟩
  else if r.val = "false".toList ∨ r.val = "FALSE".toList ∨ r.val = "False".toList then
    ⟨false, .noError, r.rest⟩
  else ⟨old, .conversionError, r.rest⟩

/-- An extraction with the check before it that the device is open (`input_text_stream.hpp:168`, `200`, `235`, `255`, `273`,
`290`, `309`, `327`, `345`, `363`, `381`, `400`, `418`, `438`). -/
def checked {α : Type _} (m : Mode) (isOpen : Bool) (old : α) (err : Flag) (dev : Dev) (f : α → Dev → Ext α) : Res (Ext α) Unit :=
  match assertThrow m isOpen .openError with
  | .ok _ => .ok (f old dev) ()
  | .throw e => .throw ⟨old, err, dev⟩ e
  | .ub => .ub

/-! ## Output -/

/-- An output stream: its error flag (`base_text_stream.hpp:52`), and what its device has taken. -/
structure Out where
  err : Flag
  taken : List Char
  deriving DecidableEq, Repr

/-- What becomes of a `write`: the device is closed, it fails, or it takes the first so many
characters. (The calls at `output_text_stream.hpp:158-351`.) -/
inductive Wr where
  | closed
  | failed
  | took (n : Nat)
  deriving DecidableEq, Repr

/-- `<<` (`output_text_stream.hpp:158-351`) with the text given to the device: the result of `write` is not looked at.  In debug
builds a closed device is noticed, and a device throws when writing fails. -/
def Out.put (m : Mode) (s : Out) (t : List Char) : Wr → Res Out Unit
  | .closed => match m with | .debug => .throw s .openError | .release => .ok s ()
  | .failed => match m with | .debug => .throw s .writeError | .release => .ok s ()
  | .took n => .ok { s with taken := s.taken ++ t.take n } ()

end Ecl.StreamDevice
