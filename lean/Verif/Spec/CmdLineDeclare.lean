/-! # Declarations of a command line that clash -/
set_option autoImplicit false

namespace Ecl.Spec.Declared

/-- An argument as it was declared: its flag (empty if it has none), name and description, the description as
the help shows it, whether it has no labels, and whether it is optional, without labels, and for one value. -/
structure Entry where
  flag : List Char
  name : List Char
  desc : List Char
  shown : List Char
  positional : Bool
  last : Bool

/-- Flags have at most one character, which is neither `-` nor a blank; names contain neither of the two. -/
def Fine (x : Entry) : Prop :=
  x.flag.length ≤ 1 ∧ x.flag ≠ ['-'] ∧ x.flag ≠ [' '] ∧ '-' ∉ x.name ∧ ' ' ∉ x.name

/-- `y` can be declared after `x`: they have different names and flags, or, for an argument without labels, its
description is not the one shown for `x`; and no argument without labels follows an optional one. -/
def Follows (x y : Entry) : Prop :=
  y.name ≠ x.name ∧ (y.positional = false → y.flag ≠ [] → y.flag ≠ x.flag) ∧
  (y.positional = true → y.desc ≠ x.shown) ∧ ¬(x.last = true ∧ y.positional = true)

/-- The switches every command line has. -/
def builtins (helpAndVersion : Bool) : List Entry :=
  (if helpAndVersion then
    [⟨['h'], "help".toList, "Displays usage information and exits.".toList,
      "Displays usage information and exits.".toList, false, false⟩,
     ⟨[], "version".toList, "Displays version information and exits.".toList,
      "Displays version information and exits.".toList, false, false⟩]
  else []) ++
  [⟨['-'], "ignore_rest".toList, "Ignores the rest of the labeled arguments following this flag.".toList,
    "Ignores the rest of the labeled arguments following this flag.".toList, false, false⟩]

end Ecl.Spec.Declared
