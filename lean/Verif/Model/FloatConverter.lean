import Verif.Model.Converters
import Mathlib.Data.Rat.Floor

/-!
# Model of the conversions of floating point numbers and of `bool` to a character buffer

A number is its exact value (every finite `float` or `double` is a rational number); NaN, infinities
and the sign of zero are left out.  The buffer is modelled as for the integral types: `mem` is
`[buffer_begin, buffer_end]`, `cap + 1` characters.
-/
set_option autoImplicit false

namespace Ecl.Conv

/-! ## What the C library does -/

/-- The natural number nearest to a non-negative rational, the even one when two are equally near.
(C library behind `char_strings.hpp:690-714`.) -/
def nearest (q : ℚ) : Nat :=
  let n := ⌊q⌋.toNat
  if q - n < 1 / 2 then n
  else if 1 / 2 < q - n then n + 1
  else if n % 2 = 0 then n else n + 1

/-- The last `d` decimal digits of `n`. (C library behind `char_strings.hpp:690-714`.) -/
def lastDigits : Nat → Nat → List Char
  | 0, _ => []
  | d + 1, n => lastDigits d (n / 10) ++ [Nat.digitChar (n % 10)]

/-- The text `printf` gives for `%.df` (ISO C, default rounding mode; no point without decimals).
(C library behind `char_strings.hpp:690-714`.) -/
def fixedText (d : Nat) (q : ℚ) : List Char :=
  let n := nearest (|q| * 10 ^ d)
  (if q < 0 then ['-'] else []) ++ Nat.toDigits 10 (n / 10 ^ d) ++
    (if d = 0 then [] else '.' :: lastDigits d n)

/-- The number of decimals a format asks for: `%f` for six, `%.df` or `%.ddf` for as many as written;
other formats are not needed. (C library behind `char_strings.hpp:690-714`.) -/
def formatDecimals : List Char → Option Nat
  | ['%', 'f'] => some 6
  | ['%', '.', a, 'f'] => if a.isDigit then some (a.toNat - 48) else none
  | ['%', '.', a, b, 'f'] =>
    if a.isDigit ∧ b.isDigit then some ((a.toNat - 48) * 10 + (b.toNat - 48)) else none
  | _ => none

/-- `snprintf(buffer, size, format, number)` with `size` not larger than the memory: writes at most
`size - 1` characters of the text and a NUL, nothing if `size` is zero. -/
def snprintf (mem : List Char) (size : Nat) (format : List Char) (q : ℚ) : Outcome (List Char) :=
  match formatDecimals (format.takeWhile (· ≠ '\x00')) with
  | none => .ub
  | some d =>
    if size = 0 then .ok mem
    else if mem.length < min (fixedText d q).length (size - 1) + 1 then .ub
    else
      let t := (fixedText d q).take (size - 1) ++ ['\x00']
      .ok (t ++ mem.drop t.length)

/-! ## `Converter<char*,float>`, `Converter<char*,double>` -/

/-- `format_specifier` after construction (`char_strings.hpp:653-658`, `666-671`, `742-747`,
`755-760`). -/
def formatNew : List Char := ['%', '.', 'x', 'f', 'f', '\x00']

/-- The assignments to `format_specifier` in `operator()` (`char_strings.hpp:691-709`, `780-798`). -/
def formatFor (fmt : List Char) (precision : Int) : List Char :=
  if precision < 0 then (fmt.set 1 'f').set 2 '\x00'
  else if precision < 10 then
    (((fmt.set 1 '.').set 2 (Char.ofNat (48 + precision.toNat))).set 3 'f').set 4 '\x00'
  else if precision < 20 then
    (((fmt.set 1 '.').set 2 '1').set 3 (Char.ofNat (48 + (precision.toNat - 10)))).set 4 'f'
  else (((fmt.set 1 '.').set 2 '2').set 3 '0').set 4 'f'

/-- A converter with its buffer. (`char_strings.hpp:61-67`, `652-659`, `741-760`.) -/
structure FloatConv where
  fmt : List Char
  mem : List Char
  cap : Nat

/-- A converter on a buffer of the caller (`char_strings.hpp:67`, `652-659`). -/
def FloatConv.new (mem : List Char) : FloatConv := ⟨formatNew, mem, mem.length - 1⟩

/-- `operator()` (`char_strings.hpp:690-714`, `779-802`): the state, and the C string at the returned
pointer `buffer_begin`.  `none`: no NUL in the buffer. -/
def FloatConv.call (c : FloatConv) (q : ℚ) (precision : Int) : Outcome (FloatConv × Option (List Char)) :=
  let fmt := formatFor c.fmt precision
  match snprintf c.mem c.cap fmt q with
  | .ok mem => .ok (⟨fmt, mem, c.cap⟩, if '\x00' ∈ mem then some (mem.takeWhile (· ≠ '\x00')) else none)
  | .throw e => .throw e
  | .ub => .ub

/-- A converter after a number of calls. (`char_strings.hpp:690-714`, `779-802`.) -/
def FloatConv.calls (c : FloatConv) : List (ℚ × Int) → Outcome FloatConv
  | [] => .ok c
  | x :: xs =>
    match c.call x.1 x.2 with
    | .ok r => FloatConv.calls r.1 xs
    | .throw e => .throw e
    | .ub => .ub

/-! ## `Converter<char*,bool>` -/

/-- The text of a `bool`. (`char_strings.hpp:837-841`.) -/
def boolText (b : Bool) : List Char := if b then "true".toList else "false".toList

/-- `operator()` (`char_strings.hpp:837-841`): `*buffer_begin = '\0'`, then `strcat`, which writes the
text and a NUL without knowing the size of the buffer. -/
def boolCall (mem : List Char) (b : Bool) : Outcome (List Char) :=
  if mem.length < (boolText b).length + 1 then .ub
  else .ok (boolText b ++ ['\x00'] ++ mem.drop ((boolText b).length + 1))

end Ecl.Conv
