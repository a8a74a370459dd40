import Verif.Model.StringStream
import Verif.Spec.Text

/-!
# Specification: values written to a text and read from it

A stream whose user writes values, each followed by a blank, and reads them back is a queue of values.
The calls are those of a `StringStream`; nothing else of its model is used.
-/
set_option autoImplicit false

namespace Ecl.Spec.Values
open Ecl.StringStream Ecl.TextStream

/-- A text that is written and read: all of it, what is unread, whether blanks are handed out as
characters.  `run` counts the single characters written since the text was new or last written to in
bulk; it is `none` after `clear` until then, and plays no role in what the calls return. -/
structure Text where
  all : List Char
  unread : List Char
  raw : Bool
  run : Option Nat

/-- More text in bulk. -/
def Text.add (t : Text) (x : List Char) : Text :=
  ⟨t.all ++ x, t.unread ++ x, t.raw, if x = [] then t.run else some 0⟩

/-- The calls on a text.  An extractor is a function of the unread text (C42, C43, C45, C46); the text
of an integer is its numeral, the text of a real number the one `printf` gives with six decimals
(C85). -/
def textStep (t : Text) : Op → Text × Obs Val
  | .putChar c => (⟨t.all ++ [c], t.unread ++ [c], t.raw, t.run.map (· + 1)⟩, .ok .unit)
  | .putText x => (t.add x, .ok .unit)
  | .putInt _ i => (t.add (numeral i), .ok .unit)
  | .putBool b => (t.add (if b then "true" else "false").toList, .ok .unit)
  | .putReal q => (t.add (Conv.fixedText 6 q), .ok .unit)
  | .getChar old =>
    let g := getChar t.raw old t.unread
    ({ t with unread := g.rest }, .ok (.char g.val g.err))
  | .getInt ty old =>
    let g := getInt ty old t.unread
    ({ t with unread := g.rest }, .ok (.num g.val g.err))
  | .getWord old =>
    let g := getWord old t.unread
    ({ t with unread := g.rest }, .ok (.word g.val g.err))
  | .getBool old =>
    let g := getBool old t.unread
    ({ t with unread := g.rest }, .ok (.bool g.val g.err))
  | .getReal old =>
    let g := getFloat old t.unread
    ({ t with unread := g.rest }, .ok (.real g.val g.err))
  | .rawReads on => ({ t with raw := on }, .ok .unit)
  | .clear => (⟨[], [], t.raw, none⟩, .ok .unit)
  | .str => (t, .ok (.text t.all))
  | .cstr => (t, .ok (.text (t.all.takeWhile (· ≠ '\x00'))))

/-- A value: an integer of a type, a word, a boolean, a real number. -/
inductive Item where
  | num (t : ITy) (i : Int) | word (w : List Char) | bool (b : Bool) | real (q : ℚ)

/-- What is asked for, with the value the variable has before. -/
inductive Ask where
  | num (t : ITy) (old : Int) | word (old : List Char) | bool (old : Bool) | real (old : ℚ)

/-- A variable of the type of the value. -/
inductive Fits : Ask → Item → Prop
  | num (t : ITy) (i old : Int) : Fits (.num t old) (.num t i)
  | word (w old : List Char) : Fits (.word old) (.word w)
  | bool (b old : Bool) : Fits (.bool old) (.bool b)
  | real (q old : ℚ) : Fits (.real old) (.real q)

/-- What the user does. -/
inductive Use where
  | write (x : Item) | read (a : Ask) | clear

/-- The call that writes a value. -/
def insertion : Item → Op
  | .num t i => .putInt t i
  | .word w => .putText w
  | .bool b => .putBool b
  | .real q => .putReal q

/-- The call that reads a value. -/
def extraction : Ask → Op
  | .num t old => .getInt t old
  | .word old => .getWord old
  | .bool old => .getBool old
  | .real old => .getReal old

/-- The calls made: a value is written with a blank after it. -/
def calls : Use → List Op
  | .write x => [insertion x, .putChar ' ']
  | .read a => [extraction a]
  | .clear => [.clear]

/-- `Queue q us xs`: used this way from the contents `q` on, a queue hands out the values `xs`; every
read finds a value of the type it asks for. -/
inductive Queue : List Item → List Use → List Item → Prop
  | nil (q : List Item) : Queue q [] []
  | write {q us xs} (x : Item) : Queue (q ++ [x]) us xs → Queue q (.write x :: us) xs
  | read {q us xs} (x : Item) (a : Ask) : Fits a x → Queue q us xs →
      Queue (x :: q) (.read a :: us) (x :: xs)
  | clear {q us xs} : Queue [] us xs → Queue q (.clear :: us) xs

/-- The variable holds the value and the stream reports no error; a real number is written with six
decimals and comes back as near as that allows. -/
inductive Read : Item → Val → Prop
  | num (t : ITy) (i : Int) : Read (.num t i) (.num i .noError)
  | word (w : List Char) : Read (.word w) (.word w .noError)
  | bool (b : Bool) : Read (.bool b) (.bool b .noError)
  | real (q v : ℚ) : |v - q| ≤ 1 / 2 / 10 ^ 6 → Read (.real q) (.real v .noError)

/-- The results of the extractions among the results of calls. -/
def extracted : List Val → List Val
  | [] => []
  | .unit :: vs => extracted vs
  | v :: vs => v :: extracted vs

end Ecl.Spec.Values
