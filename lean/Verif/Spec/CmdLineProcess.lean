import Verif.Model.CmdLineProcess

/-! # Command lines that keep out of each other's way -/
set_option autoImplicit false

namespace Ecl.Spec
open Ecl.CmdLine

variable {V : Type}

/-- The command line an operation is about. -/
def Op.line : Op V → Nat
  | .make i _ _ => i
  | .declare i _ => i
  | .parse i _ => i

/-- The operations on one command line, as if the program used no other. -/
def opsOn (i : Nat) (h : List (Op V)) : List (Op V) := h.filter fun o => decide (Op.line o = i)

/-- The delimiter of the command line made last. -/
def lastDelim (h : List (Op V)) : Option Char :=
  (h.filterMap fun | .make _ d _ => some d | _ => none).getLast?

/-- The arguments of a statement. -/
def declsOf : Stmt V → List (Decl V)
  | .one d => [d]
  | .xor ds => ds

/-- Does it declare an unlabeled argument, or one that may be left out? -/
def Unlabeled (s : Stmt V) : Prop := ∃ d ∈ declsOf s, d.isUnlabeled = true
def OptionalUnlabeled (s : Stmt V) : Prop :=
  ∃ d ∈ declsOf s, d.isUnlabeled = true ∧ d.required = false ∧ ∀ vs, d.slot ≠ .multi vs

/-- A text that ends the arguments: "--", "--ignore_rest", or several switches in one with "-" among them. -/
def MayIgnore (t : List Char) : Prop :=
  t = "--".toList ∨ t = "--ignore_rest".toList ∨ ∃ s, t = '-' :: s ∧ s.head? ≠ some '-' ∧ '-' ∈ s

/-- No command line meets what another one left behind: unlabeled arguments are not declared after optional unlabeled
ones of another command line; when a command line is parsed the delimiter of the command line made last is its own, and no
other command line was told before to ignore the rest. -/
def Apart (h : List (Op V)) : Prop :=
  ∀ before o after, h = before ++ o :: after →
    match o with
    | .make _ _ _ => True
    | .declare i s => Unlabeled s → ∀ j s', j ≠ i → Op.declare j s' ∈ before → ¬ OptionalUnlabeled s'
    | .parse i _ => lastDelim before = lastDelim (opsOn i before) ∧
        ∀ j argv', j ≠ i → Op.parse j argv' ∈ before → ∀ t ∈ argv', ¬ MayIgnore t

end Ecl.Spec
