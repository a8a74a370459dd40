import Verif.Model.TextStream
import Verif.Model.Formatters
import Mathlib.Logic.Function.Basic

/-!
# Functions with static buffers, called from several threads

`getIntegerFromStream`, `getFloatFromStream` (`ecl_streams/include/ecl/streams/text_streams/input_text_stream.hpp:574,652`)
and `FormatFloat::formatFixed` (`ecl_formatters/include/ecl/formatters/floats.hpp:367,382`) keep their digits and
texts in `static` arrays: one for each instantiation of the template (device and number type), shared by all streams,
formatters and threads.

A call is a program that stores to and loads from the array of its instantiation; the streams and devices belong to
the threads.  One step of a thread is one access to the array, the begin or the end of a call.  Accesses are
interleaved in any order (in C++ unordered accesses to the same element are moreover a data race, `Race`).
-/
set_option autoImplicit false

namespace Ecl.StaticBuf
open Ecl.TextStream

/-- What a call does with the array of its instantiation. (Bodies of
`input_text_stream.hpp:518-717`, `floats.hpp:363-393`.) -/
inductive Prog (α : Type) where
  | ret (a : α)
  | store (i v : Nat) (next : Prog α)
  | load (i : Nat) (next : Nat → Prog α)

/-- The contents of the array of an instantiation (`input_text_stream.hpp:519-660`,
`floats.hpp:363-393`). -/
abbrev Mem := Nat → Nat

/-- A call on its own, from the contents `m`. (`input_text_stream.hpp:518-717`,
`floats.hpp:363-393`.) -/
def Prog.run {α : Type} : Prog α → Mem → α × Mem
  | .ret a, m => (a, m)
  | .store i v p, m => p.run (Function.update m i v)
  | .load i k, m => (k (m i)).run m

/-! ## The calls -/

/-- The digit loop of `getIntegerFromStream` (`input_text_stream.hpp:615-627`); `j` digits are stored. -/
def storeDigits {α : Type} (k : Nat → List Char → Prog α) : Char → List Char → Nat → Nat → Prog α
  | _, rest, 0, j => k j rest
  | c, [], _ + 1, j => if dig c then .store j c.toNat (k (j + 1) []) else k j []
  | c, d :: ds, room + 1, j => if dig c then .store j c.toNat (storeDigits k d ds room (j + 1)) else k j (d :: ds)

/-- The conversion loop (`input_text_stream.hpp:632-642`) from digit `i` on, `n` digits left. -/
def sumDigits {α : Type} (ceiling : Nat) (k : Option Nat → Prog α) : Nat → Nat → Nat → Prog α
  | _, 0, number => k (some number)
  | i, n + 1, number =>
    if number < ceiling then .load i fun c => sumDigits ceiling k (i + 1) n (10 * number + (c - '0'.toNat)) else k none

/-- The result of the conversion loop (`input_text_stream.hpp:638-645`). -/
def intEnd (sign old : Int) (rest : List Char) : Option Nat → Prog (Got Int)
  | none => .ret ⟨old, .outOfRange, rest⟩
  | some n => .ret ⟨sign * n, .noError, rest⟩

/-- The second half of `getIntegerFromStream` (`input_text_stream.hpp:612-645`). -/
def intCall (t : ITy) (sign old : Int) (c : Char) (rest : List Char) : Prog (Got Int) :=
  storeDigits (fun j rest =>
    if j = 0 then .ret ⟨old, .conversionError, rest⟩
    else sumDigits (t.max / 10) (intEnd sign old rest) 0 j 0) c rest 25 0

/-- Where the digits of `parseHexInteger` (`input_text_stream.hpp:523`) are. -/
def hexBase : Nat := 100

/-- The digit loop of `parseHexInteger` (`input_text_stream.hpp:528-546`). -/
def storeHex {α : Type} (k : Nat → List Char → Prog α) : List Char → Nat → Nat → Prog α
  | rest, 0, j => k j rest
  | [], _ + 1, j => k j []
  | c :: cs, room + 1, j =>
    match Conv.hexDigit c with
    | some d => .store (hexBase + j) d (storeHex k cs room (j + 1))
    | none => k j cs

/-- The conversion loop of `parseHexInteger` (`input_text_stream.hpp:552-560`). -/
def sumHex {α : Type} (k : Option Int → Prog α) : Nat → Nat → Int → Prog α
  | _, 0, number => k (some number)
  | i, n + 1, number =>
    if number < 3276 then .load (hexBase + i) fun d => sumHex k (i + 1) n (toShort (16 * number + d)) else k none

/-- The result of `parseHexInteger` (`input_text_stream.hpp:556-562`). -/
def hexEnd (t : ITy) (rest : List Char) : Option Int → Prog (Got Int)
  | none => .ret ⟨0, .outOfRange, rest⟩
  | some n => .ret ⟨t.wrap n, .noError, rest⟩

/-- `parseHexInteger` (`input_text_stream.hpp:518-563`). -/
def hexCall (t : ITy) (inp : List Char) : Prog (Got Int) :=
  storeHex (fun j rest => if j = 0 then .ret ⟨0, .readError, rest⟩ else sumHex (hexEnd t rest) 0 j 0) inp 25 0

/-- `getIntegerFromStream` (`input_text_stream.hpp:570-646`). -/
def getIntCall (t : ITy) (old : Int) (inp : List Char) : Prog (Got Int) :=
  match skip inp with
  | none => .ret ⟨old, .readError, []⟩
  | some (c, cs) =>
    if c = '-' then
      if t.signed then
        match cs with
        | [] => .ret ⟨old, .readError, []⟩
        | d :: ds => intCall t (-1) old d ds
      else intCall t 1 old c cs
    else if c = '+' then
      match cs with
      | [] => .ret ⟨old, .readError, []⟩
      | d :: ds => intCall t 1 old d ds
    else if c = '0' then
      match cs with
      | [] => .ret ⟨0, .noError, []⟩
      | d :: ds =>
        if blank d then .ret ⟨0, .noError, ds⟩
        else if d = 'x' then hexCall t ds
        else intCall t 1 old d ds
    else if c = 'x' then hexCall t cs
    else intCall t 1 old c cs

/-- The digit loops of `getFloatFromStream` (`input_text_stream.hpp:671-681`, `692-702`): the digit is stored before the
next character is known to exist, but counted afterwards. -/
def storeFrac {α : Type} (k : Nat → Char → List Char → Prog α) : Char → List Char → Nat → Nat → Prog α
  | c, rest, 0, j => k j c rest
  | c, [], _ + 1, j => if dig c then .store j c.toNat (k j c []) else k j c []
  | c, d :: ds, room + 1, j => if dig c then .store j c.toNat (storeFrac k d ds room (j + 1)) else k j c (d :: ds)

/-- The sums of `getFloatFromStream` (`input_text_stream.hpp:682-684`, `703-706`), in exact arithmetic as in
`Model/TextStream.lean`. -/
def sumInt {α : Type} (k : Rat → Prog α) : Nat → Nat → Rat → Prog α
  | _, 0, number => k number
  | i, n + 1, number => .load i fun c => sumInt k (i + 1) n (10 * number + ((c - '0'.toNat : Nat) : Rat))
/-- The digits after the point (`input_text_stream.hpp:703-706`). -/
def sumFrac {α : Type} (k : Rat → Prog α) : Nat → Nat → Rat → Rat → Prog α
  | _, 0, _, number => k number
  | i, n + 1, mult, number =>
    .load i fun c => sumFrac k (i + 1) n (mult / 10) (number + mult / 10 * ((c - '0'.toNat : Nat) : Rat))

/-- The part of `getFloatFromStream` after the sign (`input_text_stream.hpp:667-716`). -/
def floatCall (sign old : Rat) (c : Char) (rest : List Char) : Prog (Got Rat) :=
  storeFrac (fun i e rest =>
    sumInt (fun number =>
      if e = '.' then
        match rest with
        | [] => .ret ⟨old, .readError, []⟩
        | d :: ds =>
          storeFrac (fun j _ rest =>
            sumFrac (fun number =>
              if i + j = 0 then .ret ⟨old, .conversionError, rest⟩ else .ret ⟨sign * number, .noError, rest⟩)
              0 j 1 number) d ds 25 0
      else if i = 0 then .ret ⟨old, .conversionError, rest⟩
      else .ret ⟨sign * number, .noError, rest⟩) 0 i 0) c rest 25 0

/-- `getFloatFromStream` (`input_text_stream.hpp:648-717`). -/
def getFloatCall (old : Rat) (inp : List Char) : Prog (Got Rat) :=
  match skip inp with
  | none => .ret ⟨old, .readError, []⟩
  | some (c, cs) =>
    if c = '-' then
      match cs with
      | [] => .ret ⟨old, .readError, []⟩
      | d :: ds => floatCall (-1) old d ds
    else if c = '+' then
      match cs with
      | [] => .ret ⟨old, .readError, []⟩
      | d :: ds => floatCall 1 old d ds
    else floatCall 1 old c cs

/-- Where the text of `formatFixed` is; the format is at the elements from 0. -/
def base : Nat := 10

/-- `snprintf` storing a text and its end. (At `floats.hpp:363-393`.) -/
def putText {α : Type} (p : Prog α) : Nat → List Char → Prog α
  | i, [] => .store i 0 p
  | i, c :: cs => .store i c.toNat (putText p (i + 1) cs)

/-- `strlen` and `<<` of a text (at most `n` characters). (At `floats.hpp:363-393`.) -/
def getText {α : Type} (k : List Char → Prog α) : Nat → Nat → List Char → Prog α
  | _, 0, acc => k acc
  | i, n + 1, acc => .load i fun c => if c = 0 then k acc else getText k (i + 1) n (acc ++ [Char.ofNat c])

/-- `formatFixed` (`floats.hpp:363-393`) for a precision that is not negative; `printf d v` is the text of `v` with `d`
decimals, which contains no NUL. -/
def fixedCall {V : Type} (printf : Nat → V → List Char) (w : Int) (a : Form.Align) (p : Nat) (v : V) :
    Prog (Outcome (List Char)) :=
  let go : Prog (Outcome (List Char)) :=
    .load 2 fun c2 => .load 3 fun c3 =>
      let d := if c3 = 'f'.toNat then c2 - '0'.toNat else 10 * (c2 - '0'.toNat) + (c3 - '0'.toNat)
      putText
        (getText (fun t =>
          getText (fun u => .ret (
            if ¬ InInt (w - t.length) then .ub
            else .ok (Form.prePad a (w - t.length) ++ u ++ Form.postPad a (w - t.length)))) base 29 [])
          base 29 []) base ((printf d v).take 29)
  if p < 10 then .store 2 ('0'.toNat + p) (.store 3 'f'.toNat (.store 4 0 go))
  else if p < 20 then .store 2 '1'.toNat (.store 3 ('0'.toNat + (p - 10)) (.store 4 'f'.toNat go))
  else .store 2 '2'.toNat (.store 3 '0'.toNat (.store 4 'f'.toNat go))

/-- The calls: `>>` of an integer or a fraction from the text `inp`, `<<` of a formatted number.
(`input_text_stream.hpp:518-717`, `floats.hpp:363-393`.) -/
inductive Call (V : Type) where
  | getInt (t : ITy) (old : Int) (inp : List Char)
  | getFloat (old : Rat) (inp : List Char)
  | putFixed (w : Int) (a : Form.Align) (p : Nat) (v : V)

/-- What they give. (`input_text_stream.hpp:518-717`, `floats.hpp:363-393`.) -/
inductive Result where
  | int (r : Got Int)
  | float (r : Got Rat)
  | text (r : Outcome (List Char))

/-- A program with a function of its result. (Wraps the results of
`input_text_stream.hpp:518-717`, `floats.hpp:363-393`.) -/
def Prog.map {α β : Type} (g : α → β) : Prog α → Prog β
  | .ret a => .ret (g a)
  | .store i v p => .store i v (p.map g)
  | .load i k => .load i fun v => (k v).map g

/-- The program of a call. (`input_text_stream.hpp:518-717`, `floats.hpp:363-393`.) -/
def Call.prog {V : Type} (printf : Nat → V → List Char) : Call V → Prog Result
  | .getInt t old inp => (getIntCall t old inp).map .int
  | .getFloat old inp => (getFloatCall old inp).map .float
  | .putFixed w a p v => (fixedCall printf w a p v).map .text

/-! ## Threads -/

/-- A thread: the call it is in (its instantiation and what is left to do), the calls to come, the
results so far. (Of calls of `input_text_stream.hpp:518-717`, `floats.hpp:363-393`.) -/
structure Thread (α : Type) where
  cur : Option (Nat × Prog α)
  todo : List (Nat × Prog α)
  results : List α

/-- The arrays and the threads (`input_text_stream.hpp:518-717`, `floats.hpp:363-393`). -/
structure State (α : Type) where
  mem : Nat → Mem
  th : Nat → Thread α

/-- Thread `i` goes on by one step. (`input_text_stream.hpp:518-717`, `floats.hpp:363-393`.) -/
def step {α : Type} (s : State α) (i : Nat) : State α :=
  match (s.th i).cur with
  | none =>
    match (s.th i).todo with
    | [] => s
    | c :: cs => ⟨s.mem, Function.update s.th i ⟨some c, cs, (s.th i).results⟩⟩
  | some (_, .ret a) => ⟨s.mem, Function.update s.th i ⟨none, (s.th i).todo, (s.th i).results ++ [a]⟩⟩
  | some (k, .store j v p) =>
    ⟨Function.update s.mem k (Function.update (s.mem k) j v),
      Function.update s.th i ⟨some (k, p), (s.th i).todo, (s.th i).results⟩⟩
  | some (k, .load j f) =>
    ⟨s.mem, Function.update s.th i ⟨some (k, f (s.mem k j)), (s.th i).todo, (s.th i).results⟩⟩

/-- At the start no call has begun. (`input_text_stream.hpp:518-717`, `floats.hpp:363-393`.) -/
def start {α : Type} (mem : Nat → Mem) (calls : Nat → List (Nat × Prog α)) : State α :=
  ⟨mem, fun i => ⟨none, calls i, []⟩⟩

/-- The threads in the order of a schedule. (`input_text_stream.hpp:518-717`,
`floats.hpp:363-393`.) -/
def exec {α : Type} (s : State α) (sched : List Nat) : State α := sched.foldl step s

/-- Two threads are about to access the same element, at least one of them writing: a data race.
(`input_text_stream.hpp:518-717`, `floats.hpp:363-393`.) -/
def Race {α : Type} (s : State α) : Prop :=
  ∃ i j k n v p, i ≠ j ∧ (s.th i).cur = some (k, .store n v p) ∧
    ((∃ v' p', (s.th j).cur = some (k, .store n v' p')) ∨ ∃ f, (s.th j).cur = some (k, .load n f))

end Ecl.StaticBuf
