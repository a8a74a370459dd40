/-!
# Command lines: the reader's side

Small definitions used to state the properties of command line parsing.  They do not refer to any
model of the code.
-/
set_option autoImplicit false

namespace Ecl.Spec

/-- `t` is one of the two labels of an argument: `-f` (if it has a flag) or `--name`. -/
def Labels (flag name t : List Char) : Prop :=
  (flag ≠ [] ∧ t = '-' :: flag) ∨ t = '-' :: '-' :: name

/-- The text `t` names the argument: it is one of its labels, possibly followed by the delimiter
`d` and a value. -/
def Names (d : Char) (flag name t : List Char) : Prop :=
  ∃ l, Labels flag name l ∧ (t = l ∨ ∃ v, t = l ++ d :: v)

/-- The text is not a combination of several switches: if it starts with a single `-`, at most one
character follows.  (It contains no NUL, as no text of `argv` does.) -/
def NotCombined (t : List Char) : Prop :=
  '\x00' ∉ t ∧ ∀ cs, t = '-' :: cs → cs.head? ≠ some '-' → cs.length ≤ 1

/-- One option on a command line: the argument meant, the label used for it, the text of the value
and the value this text stands for. -/
structure Item (V : Type _) where
  id : Nat
  label : List Char
  text : List Char
  value : V

/-- The values the items give to the argument `id`, in order. -/
def valuesFor {V : Type _} (items : List (Item V)) (id : Nat) : List V :=
  (items.filter (fun x => decide (x.id = id))).map Item.value

/-- The texts of an item when values are separate texts (delimiter `' '`), and when they are
attached with a delimiter. -/
def spaced {V : Type _} (items : List (Item V)) : List (List Char) :=
  items.flatMap (fun x => [x.label, x.text])

def attached {V : Type _} (d : Char) (items : List (Item V)) : List (List Char) :=
  items.map (fun x => x.label ++ d :: x.text)

/-- Switches given together and one by one. -/
def together (cs : List Char) : List Char := '-' :: cs

def oneByOne (cs : List Char) : List (List Char) := cs.map (fun c => ['-', c])

/-- White space. -/
def Blank (c : Char) : Prop := c ∈ [' ', '\t', '\n', '\x0b', '\x0c', '\r']

/-- The value of a row of decimal digits. -/
def decimalValue (ds : List Char) : Nat := ds.foldl (fun n c => 10 * n + (c.toNat - '0'.toNat)) 0

/-- The text consists of blanks, perhaps a sign, and digits, and stands for the 32 bit integer `i`. -/
def IntText (s : List Char) (i : Int) : Prop :=
  ∃ w sign ds, s = w ++ sign ++ ds ∧ (∀ c ∈ w, Blank c) ∧ ds ≠ [] ∧ (∀ c ∈ ds, '0' ≤ c ∧ c ≤ '9') ∧
    ((sign = [] ∨ sign = ['+']) ∧ i = decimalValue ds ∨ sign = ['-'] ∧ i = -decimalValue ds) ∧
    -(2 ^ 31) ≤ i ∧ i < 2 ^ 31

/-- The value is among the allowed ones, if any were named. -/
def Permitted {V : Type _} (allowed : Option (List V)) (v : V) : Prop := ∀ l, allowed = some l → v ∈ l

end Ecl.Spec
