import Verif.Model.StringDevice
import Verif.Model.TextStream
import Verif.Model.FloatConverter

/-!
# Model of `ecl::StringStream`

A text stream on a `String` device: both directions share the device, and the output side has its
own converter with a buffer of 30 characters.  A `String` is always open, so the checks of the debug
build never fail.
-/
set_option autoImplicit false

namespace Ecl.StringStream
open TextStream (Got ITy)

/-- The stream (`string_stream.hpp:44`, `text_stream.hpp:93-99`): the device, the buffer of the
converter with the format of its `double` part (`output_text_stream.hpp:93-97`,
`char_strings.hpp:857-888`), and the flag of the input side (`input_text_stream.hpp:120`). -/
structure Stream where
  dev : StrDev
  buf : List Char
  fmt : List Char
  raw : Bool

/-- A new stream (`string_stream.hpp:44-77` declares no constructor; `string.hpp:59`,
`output_text_stream.hpp:93-97`, `input_text_stream.hpp:148-150`). -/
def new : Outcome Stream := do
  let b ← Conv.bufNew 30
  .ok ⟨StrDev.make [], b.1, Conv.formatNew, false⟩

/-- `<< char` (`output_text_stream.hpp:158-163`): one character to the device. -/
def putChar (s : Stream) (c : Char) : Outcome Stream := do
  let d ← s.dev.put c
  .ok { s with dev := d }

/-- `<< const char*`, `<< std::string` (`output_text_stream.hpp:171-192`): all characters at once. -/
def putText (s : Stream) (t : List Char) : Outcome Stream := do
  let r ← s.dev.puts t
  .ok { s with dev := r.1 }

/-- `<< integer` (`output_text_stream.hpp:200-309`): the converter's C string. -/
def putInt (s : Stream) (t : ITy) (i : Int) : Outcome Stream := do
  let o ← TextStream.Out.putInt t ⟨s.buf, []⟩ i
  putText { s with buf := o.mem } o.text

/-- `<< bool` (`output_text_stream.hpp:317-323`). -/
def putBool (s : Stream) (b : Bool) : Outcome Stream :=
  putText s (if b then "true".toList else "false".toList)

/-- `<< double` (`output_text_stream.hpp:345-351`): the converter with the default precision on the
shared buffer (`char_strings.hpp:779-802`, `690-714`).  `strlen` of a buffer without NUL is
undefined.  (`<< float` is the same with the converter for `float`.) -/
def putReal (s : Stream) (q : ℚ) : Outcome Stream := do
  let r ← Conv.FloatConv.call ⟨s.fmt, s.buf, 29⟩ q (-1)
  match r.2 with
  | none => .ub
  | some t => putText { s with buf := r.1.mem, fmt := r.1.fmt } t

/-- An extraction.  The extractors read one character at a time with `read(char&)`
(`string.cpp:63-71`), which hands out the unread text and then returns 0 for ever; the functions of
`TextStream` take that text and give back what they leave unread, which moves the read cursor. -/
def extract {α : Type} (s : Stream) (f : List Char → Got α) : Outcome (Stream × Got α) := do
  let unread ← StrDev.load s.dev.mem s.dev.r s.dev.remaining
  let g := f unread
  .ok ({ s with dev := { s.dev with r := s.dev.r + (unread.length - g.rest.length) } }, g)

/-- The calls (`output_text_stream.hpp:158-351`, `input_text_stream.hpp:165-486`,
`string_stream.hpp:55-74`).  An extraction gets the variable's old value. -/
inductive Op where
  | putChar (c : Char) | putText (t : List Char) | putInt (t : ITy) (i : Int) | putBool (b : Bool)
  | putReal (q : ℚ)
  | getChar (old : Char) | getInt (t : ITy) (old : Int) | getWord (old : List Char)
  | getBool (old : Bool) | getReal (old : ℚ)
  | rawReads (on : Bool)
  | clear | str | cstr

/-- Their results: nothing, the variable and the stream's error flag, or a text.
(`input_text_stream.hpp:165-456`, `string_stream.hpp:55-74`.) -/
inductive Val where
  | unit
  | char (c : Char) (e : Flag) | num (i : Int) (e : Flag) | word (w : List Char) (e : Flag)
  | bool (b : Bool) (e : Flag) | real (q : ℚ) (e : Flag)
  | text (t : List Char)

/-- An inserter as a step. (`output_text_stream.hpp:158-351`.) -/
def wrote (s : Stream) : Outcome Stream → Res Stream Val
  | .ok s => .ok s .unit
  | .throw e => .throw s e
  | .ub => .ub

/-- An extractor as a step. (`input_text_stream.hpp:165-456`.) -/
def took {α : Type} (s : Stream) (v : α → Flag → Val) : Outcome (Stream × Got α) → Res Stream Val
  | .ok r => .ok r.1 (v r.2.val r.2.err)
  | .throw e => .throw s e
  | .ub => .ub

/-- One call (`output_text_stream.hpp:158-351`, `input_text_stream.hpp:165-486`,
`string_stream.hpp:55-74`).  `clear()` touches nothing but the device. -/
def step (s : Stream) : Op → Res Stream Val
  | .putChar c => wrote s (putChar s c)
  | .putText t => wrote s (putText s t)
  | .putInt t i => wrote s (putInt s t i)
  | .putBool b => wrote s (putBool s b)
  | .putReal q => wrote s (putReal s q)
  | .getChar old => took s .char (extract s (TextStream.getChar s.raw old))
  | .getInt t old => took s .num (extract s (TextStream.getInt t old))
  | .getWord old => took s .word (extract s (TextStream.getWord old))
  | .getBool old => took s .bool (extract s (TextStream.getBool old))
  | .getReal old => took s .real (extract s (TextStream.getFloat old))
  | .rawReads on => .ok { s with raw := on } .unit
  | .clear => .ok { s with dev := s.dev.clear } .unit
  | .str =>
    match s.dev.str with
    | .ok t => .ok s (.text t) | .throw e => .throw s e | .ub => .ub
  | .cstr =>
    match s.dev.cstr with
    | .ok r => .ok { s with dev := r.1 } (.text r.2) | .throw e => .throw s e | .ub => .ub

end Ecl.StringStream
