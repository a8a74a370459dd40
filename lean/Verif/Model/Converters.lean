import Verif.Core.Outcome
import Verif.Core.CInt

/-!
# Model of `ecl_converters`

Characters are `Char`s (ASCII); a C string is the list of its characters before the terminating
NUL.  A byte of a `vector<char>`, `vector<signed char>` or `vector<unsigned char>` is represented
by its unsigned image, a natural number below 256: every write in the modelled code is a
`static_cast` to the element type and every read a `static_cast<unsigned char>`.
`error_handler` (a member of `ConverterBase`, `converter.hpp:31-38`) is modelled as a second result: the
flag stored by this call, `noError` if it stores none (what a converter that is used several times reports is
modelled in `Packet.lean`).
-/
set_option autoImplicit false

namespace Ecl.Conv

/-! ## Byte arrays -/

/-- `(value_type)(input >> 8*i)` for a (promoted) integral `input`: arithmetic shift, then the low
eight bits (`ecl_converters/include/ecl/converters/to_byte_array.hpp:103-105`). -/
def byteOf (v : Int) (i : Nat) : Nat := ((v / 2 ^ (8 * i)) % 256).toNat

/-- `IntegralToByteArray::operator()` writing into a caller supplied array `arr`
(`to_byte_array.hpp:78-108`): a wrong size throws in debug builds; in release builds the array is
left as it is and the error handler set.  `bytes` is `numeric_limits<Integral>::bytes`. -/
def toBytes (m : Mode) (bytes : Nat) (arr : List Nat) (v : Int) : Outcome (List Nat × Flag) :=
  if arr.length ≠ bytes then
    match m with
    | .debug => .throw .conversionError
    | .release => .ok (arr, .conversionError)
  else .ok ((List.range bytes).map (byteOf v), .noError)

/-- `static_cast<unsigned char>(b) << 8*i` (`from_byte_array.hpp:95`): the left operand is promoted
to `int`, so a shift count of 32 or more is undefined; a result that reaches the sign bit is
converted to `int` (CWG 1457). -/
def shiftByte (b i : Nat) : Outcome Int :=
  if 32 ≤ 8 * i then .ub else .ok (s32 (b * 2 ^ (8 * i)))

/-- The loop `unsigned_value |= b[i] << 8*i` on a `w` bit unsigned accumulator: the `int` operand is
converted to the accumulator's type, i.e. reduced modulo `2^w` (`from_byte_array.hpp:92-96`). -/
def fromLoop (w : Nat) : List Nat → Nat → Nat → Outcome Nat
  | [], _, acc => .ok acc
  | b :: bs, i, acc => do
    let x ← shiftByte b i
    fromLoop w bs (i + 1) (acc ||| (x % 2 ^ w).toNat)

/-- `FromByteArray::operator()` for an integral type of `w` bits (`from_byte_array.hpp:76-106`).
Only arrays that are too long are errors; in release builds the loop runs all the same. -/
def fromBytes (m : Mode) (w : Nat) (signed : Bool) (arr : List Nat) : Outcome (Int × Flag) :=
  if w / 8 < arr.length ∧ m = .debug then .throw .conversionError
  else do
    let u ← fromLoop w arr 0 0
    let v : Int := if signed then (if u < 2 ^ (w - 1) then (u : Int) else (u : Int) - 2 ^ w) else u
    .ok (v, if w / 8 < arr.length then .conversionError else .noError)

/-! ## Hex strings -/

/-- States of the parser (`to_byte_array.hpp:291-298`). -/
inductive HexState where
  | waitingZero | waitingX | waitingFirst | waitingSecond
  deriving DecidableEq, Repr

/-- The three digit arms of the switch (`to_byte_array.hpp:320-330`, `340-350`): the value of a
character that is accepted as hexadecimal digit. -/
def hexDigit (c : Char) : Option Nat :=
  if '0'.toNat ≤ c.toNat ∧ c.toNat ≤ '9'.toNat then some (c.toNat - '0'.toNat)
  else if 'a'.toNat ≤ c.toNat ∧ c.toNat ≤ 'f'.toNat then some (10 + (c.toNat - 'a'.toNat))
  else if 'A'.toNat ≤ c.toNat ∧ c.toNat ≤ 'F'.toNat then some (10 + (c.toNat - 'A'.toNat))
  else none

/-- One run of the parser loop (`to_byte_array.hpp:283-389`) from a state, the byte under
construction and the bytes already pushed.  `none` is the `error` exit.  The end of the string
leaves the loop in whatever state it is. -/
def hexLoop : List Char → HexState → Nat → List Nat → Option (List Nat)
  | [], _, _, out => some out
  | c :: cs, .waitingZero, byte, out =>
    if c = '0' then hexLoop cs .waitingX byte out
    else if c = ' ' then hexLoop cs .waitingZero byte out
    else none
  | c :: cs, .waitingX, byte, out =>
    if c = 'x' then hexLoop cs .waitingFirst byte out else none
  | c :: cs, .waitingFirst, _, out =>
    match hexDigit c with
    | some d => hexLoop cs .waitingSecond ((d * 16) % 256) out
    | none => none
  | c :: cs, .waitingSecond, byte, out =>
    match hexDigit c with
    | some d => hexLoop cs .waitingZero byte (out ++ [(byte + d) % 256])
    | none => none

/-- `Converter<vector<char>,char*>` (`to_byte_array.hpp:283-389`) and `Converter<vector<char>,
std::string>` (which passes on `c_str()`, so the text ends at its first NUL). -/
def hexParse (m : Mode) (s : List Char) : Outcome (List Nat × Flag) :=
  match hexLoop s .waitingZero 0 [] with
  | some out => .ok (out, .noError)
  | none =>
    match m with
    | .debug => .throw .conversionError
    | .release => .ok ([], .conversionError)

/-! ## Digits -/

/-- `Converter<char,unsigned int>` (`char.hpp:57-63`); `'0' + input%10` is computed either way in
release builds. -/
def charOfUnsigned (m : Mode) (n : Nat) : Outcome (Char × Flag) :=
  if 9 < n then
    match m with
    | .debug => .throw .conversionError
    | .release => .ok (Char.ofNat (48 + n % 10), .conversionError)
  else .ok (Char.ofNat (48 + n % 10), .noError)

/-- `Converter<char,int>` (`char.hpp:87-93`): the character code `'0' + input%10` with C++'s
truncated remainder (a code, because a negative input in a release build gives a character
below `'0'`). -/
def charOfInt (m : Mode) (i : Int) : Outcome (Int × Flag) :=
  if i < 0 ∨ 9 < i then
    match m with
    | .debug => .throw .outOfRange
    | .release => .ok (48 + i.tmod 10, .outOfRange)
  else .ok (48 + i.tmod 10, .noError)

/-- `Converter<int,char>` (`integers.hpp:88-94`) on the character code `c`. -/
def intOfChar (m : Mode) (c : Int) : Outcome (Int × Flag) :=
  if c < 48 ∨ 57 < c then
    match m with
    | .debug => .throw .conversionError
    | .release => .ok (c - 48, .conversionError)
  else .ok (c - 48, .noError)

/-! ## Integers to and from `std::string` -/

/-- The loop of `Converter<std::string,int>` (`string.hpp:80-88`): `p` is the offset of `pointer`
in `buffer[12]`, `s` the characters from there to the NUL.  Decrementing below the start of the
buffer is undefined.  `remaining` is non-negative here, so it is a natural number. -/
def strLoop (m : Mode) (p : Nat) (s : List Char) (n : Nat) : Outcome (Nat × List Char) :=
  if p = 0 then .ub
  else do
    let c ← charOfUnsigned m (n % 10)
    if h : n / 10 = 0 then .ok (p - 1, c.1 :: s)
    else strLoop m (p - 1) (c.1 :: s) (n / 10)
termination_by n

/-- `Converter<std::string,int>::operator()` (`string.hpp:63-97`). -/
def strOfInt (m : Mode) (i : Int) : Outcome (List Char) :=
  if i < 0 then
    if intMax < -i then .ub            -- `remaining *= -1` overflows
    else do
      let r ← strLoop m 11 [] (-i).toNat
      if r.1 = 0 then .ub else .ok ('-' :: r.2)
  else do
    let r ← strLoop m 11 [] i.toNat
    .ok r.2

/-- Longest prefix of decimal digits. (Library behaviour behind `integers.hpp:57-66`.) -/
def digitsPrefix (s : List Char) : List Char := s.takeWhile Char.isDigit

/-- `istringstream >> int` as the standard library specifies it for the classic locale: skip white
space, optional sign, decimal digits; fails without digits or when the value is not an `int`.
Gives the value and the unread rest.  (Library behaviour, not ecl code.) Called from
`integers.hpp:57-66`. -/
def readInt (s : List Char) : Option (Int × List Char) :=
  let s := s.dropWhile (fun c => c = ' ' ∨ c = '\t' ∨ c = '\n' ∨ c = '\r' ∨ c = '\x0b' ∨ c = '\x0c')
  let neg : Bool := s.head? = some '-'
  let s' := if s.head? = some '-' ∨ s.head? = some '+' then s.tail else s
  let ds := digitsPrefix s'
  if ds = [] then none
  else
    let v : Int := Nat.ofDigitChars 10 ds 0
    let v := if neg then -v else v
    if InInt v then some (v, s'.drop ds.length) else none

/-- `Converter<int,std::string>::operator()` (`integers.hpp:57-66`): extraction, and no character
left.  In release builds the value is then whatever the stream stored (0 or a clamped value since
C++11; not modelled: `none`). -/
def intOfStr (m : Mode) (s : List Char) : Outcome (Option Int × Flag) :=
  match readInt s with
  | some (v, []) => .ok (some v, .noError)
  | some (v, _ :: _) =>
    match m with
    | .debug => .throw .conversionError
    | .release => .ok (some v, .conversionError)
  | none =>
    match m with
    | .debug => .throw .conversionError
    | .release => .ok (none, .conversionError)

/-! ## Integers to a caller's character buffer -/

/-- Write through a pointer into the buffer `[begin, end]`; anything else is undefined.
(`char_strings.hpp:79,118,127,154`.) -/
def put (mem : List Char) (i : Nat) (c : Char) : Outcome (List Char) :=
  if i < mem.length then .ok (mem.set i c) else .ub

/-- The loop of `convertUnsignedIntegral`/`convertSignedIntegral` (`char_strings.hpp:119-129`,
`145-152`).  `p` is `str_ptr - buffer_begin`, `lo` the lowest offset that may be written (0, or 1
when room for the sign is kept).  Returns the memory and the final offset, `none` standing for the
`NULL` returned when the numeral does not fit.  A pointer one before the buffer is formed and
compared (formally undefined, harmless on every target): it is modelled by the test `p ≤ lo`
before the decrement. -/
def bufLoop (lo : Nat) (mem : List Char) (p : Nat) (n : Nat) : Outcome (List Char × Option Nat) :=
  if p ≤ lo then .ok (mem, none)
  else do
    let mem ← put mem (p - 1) (Char.ofNat (48 + n % 10))
    if h : n / 10 = 0 then .ok (mem, some (p - 1))
    else bufLoop lo mem (p - 1) (n / 10)
termination_by n

/-- `CharStringBuffer(begin,end)` with `buffer_end - buffer_begin = cap`, then
`convertUnsignedIntegral` (`char_strings.hpp:67`, `115-130`): `mem` is the whole buffer
`[begin,end]`, i.e. `cap+1` characters. -/
def bufUnsigned (mem : List Char) (cap : Nat) (n : Nat) : Outcome (List Char × Option Nat) := do
  let mem ← put mem cap '\x00'
  bufLoop 0 mem cap n

/-- `convertSignedIntegral` (`char_strings.hpp:140-157`) for a type whose promoted type has maximum
`promMax` (`INT_MAX` for `short` and `int`, `LONG_MAX` for `long` and `long long`):
`-1*number` is evaluated in the promoted type. -/
def bufSigned (promMax : Int) (mem : List Char) (cap : Nat) (i : Int) :
    Outcome (List Char × Option Nat) :=
  if i < 0 then
    if promMax < -i then .ub
    else do
      let mem ← put mem cap '\x00'
      let r ← bufLoop 1 mem cap (-i).toNat
      match r.2 with
      | none => .ok r
      | some p => do
        let mem ← put r.1 (p - 1) '-'
        .ok (mem, some (p - 1))
  else bufUnsigned mem cap i.toNat

/-- `Converter<char*,char>` (`char_strings.hpp:213-215`) instantiates the unsigned conversion with
the signed type `char`; with C++'s truncated division a negative number writes `'0'` plus its
(negative) remainders. -/
def bufCharLoop (mem : List Char) (p : Nat) (i : Int) : Outcome (List Char × Option Nat) :=
  if p = 0 then .ok (mem, none)
  else do
    let mem ← put mem (p - 1) (Char.ofNat (48 + i.tmod 10).toNat)
    if h : i.tdiv 10 = 0 then .ok (mem, some (p - 1))
    else bufCharLoop mem (p - 1) (i.tdiv 10)
termination_by i.natAbs
decreasing_by
  have : i ≠ 0 := by rintro rfl; simp at h
  rw [Int.natAbs_tdiv]
  exact Nat.div_lt_self (by omega) (by decide)

/-- `Converter<char*,char>::operator()` (`char_strings.hpp:213-215`). -/
def bufChar (mem : List Char) (cap : Nat) (i : Int) : Outcome (List Char × Option Nat) := do
  let mem ← put mem cap '\x00'
  bufCharLoop mem cap i

/-- The C string starting at offset `p`. (What the user reads from the pointer returned by
`char_strings.hpp:115-157`.) -/
def cstr (mem : List Char) (p : Nat) : List Char := (mem.drop p).takeWhile (· ≠ '\x00')

/-- `CharStringBuffer(buffer_size)` (`char_strings.hpp:77-85`): allocates `size` characters and
writes the NUL at `begin + size - 1`. -/
def bufNew (size : Nat) : Outcome (List Char × Nat) :=
  if size = 0 then .ub else .ok (List.replicate (size - 1) '?' ++ ['\x00'], size - 1)

end Ecl.Conv
