/-!
# Texts on streams: the reader's side
-/
set_option autoImplicit false

namespace Ecl.Spec

/-- Spaces and newlines separate the items of a text stream. -/
def IsBlank (c : Char) : Prop := c = ' ' ∨ c = '\n'

instance (c : Char) : Decidable (IsBlank c) := by unfold IsBlank; exact inferInstance

/-- `AllBlank s`: nothing but spaces and newlines. -/
def AllBlank (s : List Char) : Prop := ∀ c ∈ s, IsBlank c

instance (s : List Char) : Decidable (AllBlank s) := by unfold AllBlank; exact inferInstance

/-- `Digits ds`: a non-empty string of decimal digits. -/
def Digits (ds : List Char) : Prop := ds ≠ [] ∧ ∀ c ∈ ds, c.isDigit = true

instance (ds : List Char) : Decidable (Digits ds) := by unfold Digits; exact inferInstance

/-- The text `t` does not continue a number. -/
def NotDigitNext (t : List Char) : Prop := ∀ c ∈ t.head?, c.isDigit = false

instance (t : List Char) : Decidable (NotDigitNext t) := by unfold NotDigitNext; exact inferInstance

/-- The number a string of decimal digits denotes (Lean's own reading of numerals). -/
def decValue (ds : List Char) : Nat := Nat.ofDigitChars 10 ds 0

/-- The fraction in `[0,1)` a string of decimal digits denotes after the point. -/
def fracValue (ds : List Char) : Rat := (decValue ds : Rat) / (10 : Rat) ^ ds.length

/-- The number hexadecimal digits with the values `ds` denote. -/
def hexValue (ds : List Nat) : Nat := ds.foldl (fun n d => 16 * n + d) 0

/-- `NextWord inp w rest`: `w` is the first maximal run of non-blank characters of `inp` and `rest`
is what follows it and its one terminating blank. -/
def NextWord (inp w rest : List Char) : Prop :=
  w ≠ [] ∧ (∀ c ∈ w, ¬ IsBlank c) ∧ ∃ bl, AllBlank bl ∧
    ((inp = bl ++ w ∧ rest = []) ∨ ∃ b, IsBlank b ∧ inp = bl ++ w ++ b :: rest)

/-- The words of a text: cut at every blank, empty pieces dropped. -/
def wordsOf : List Char → List Char → List (List Char)
  | [], [] => []
  | w, [] => [w.reverse]
  | w, c :: cs =>
    if IsBlank c then (if w = [] then wordsOf [] cs else w.reverse :: wordsOf [] cs)
    else wordsOf (c :: w) cs

end Ecl.Spec
