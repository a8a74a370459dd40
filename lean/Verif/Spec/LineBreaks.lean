/-!
# A text broken into lines
-/
set_option autoImplicit false

namespace Ecl.Spec

/-- The characters before which a line may end. -/
def breaks : List Char := [' ', ',', '|']

/-- A line may end after `piece` if what follows begins with a break, or if `piece` is the end of the
text or of a line of the text, or if it is as long as the line allows and holds no break but perhaps its
first character. -/
def MayEnd (room : Nat) (piece after : List Char) : Prop :=
  after = [] ∨ piece.getLast? = some '\n' ∨ (∃ c, after.head? = some c ∧ c ∈ breaks) ∨
    (piece.length = room ∧ ∀ c ∈ piece.tail, c ∉ breaks)

/-- `lines` are the lines of `text`: the first indented by `indent`, the others by `indent'`, none longer
than `width` (not counting an end of line of the text itself), with blanks between them left out. -/
inductive LaidOut (width : Nat) : Nat → Nat → List Char → List (List Char) → Prop where
  | nil (indent indent' : Nat) : LaidOut width indent indent' [] []
  | cons (indent indent' : Nat) (piece blanks rest : List Char) (lines : List (List Char))
      (nonempty : piece ≠ []) (newline : '\n' ∉ piece.dropLast) (fits : indent + piece.length ≤ width)
      (blank : ∀ c ∈ blanks, c = ' ') (may : MayEnd (width - indent) piece (blanks ++ rest))
      (tail : LaidOut width indent' indent' rest lines) :
      LaidOut width indent indent' (piece ++ blanks ++ rest)
        ((List.replicate indent ' ' ++ piece) :: lines)

end Ecl.Spec
