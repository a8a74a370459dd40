import Verif.Model.CmdLineSaid
import Mathlib.Data.List.Forall2

/-!
# What a rejected command line is told: the reader's side

Of the model only the kinds of errors and the records of arguments are used.
-/
set_option autoImplicit false

namespace Ecl.Spec.CmdLineSaid
open Ecl.CmdLine (Str Arg Err)

/-- How an argument is called in messages: `-f (--name)`, or `(--name)` if it has no flag. -/
def label (flag name : Str) : Str :=
  (if flag = [] then [] else ['-'] ++ flag ++ [' ']) ++ "(--".toList ++ name ++ ")".toList

/-- The errors of single arguments. -/
def ofArgument : List Err := [.alreadySet, .noDelimiter, .missingValue, .unreadable, .tooMany, .constraint]

/-- The errors that quote a value. -/
def quoting : List Err := [.unreadable, .tooMany, .constraint]

/-- The sentence for an error, about the value `val` where it quotes one. -/
def sentence (val descr : Str) : Err → Str
  | .alreadySet => "Argument already set!".toList
  | .noDelimiter => "Couldn't find delimiter for this argument!".toList
  | .missingValue => "Missing a value for this argument!".toList
  | .unreadable => "Couldn't read argument value from string '".toList ++ val ++ "'".toList
  | .tooMany => "More than one valid value parsed from string '".toList ++ val ++ "'".toList
  | .constraint => "Value '".toList ++ val ++ "' does not meet constraint: ".toList ++ descr
  | .noMatch => "Couldn't find match for argument".toList
  | .requiredMissing => "One or more required arguments missing!".toList
  | .tooManyArgs => "Too many arguments!".toList

/-- The word mentions the argument: it begins with its flag or its name, or the flag is one of several letters after a
single `-`.  Unlabeled arguments may be meant by any word. -/
def Mentions {V : Type} (a : Arg V) (w : Str) : Prop :=
  a.unlabeled = true ∨ (a.flag ≠ [] ∧ ['-'] ++ a.flag <+: w) ∨ "--".toList ++ a.name <+: w ∨
    ∃ c cs, a.flag = [c] ∧ w = '-' :: cs ∧ c ∈ cs

/-- The value stands on the command line: as a word, or behind the delimiter in a word. -/
def Stands (d : Char) (argv : List Str) (val : Str) : Prop := val ∈ argv ∨ ∃ p, p ++ [d] ++ val ∈ argv

/-- `t` is the word `s` with some letters after the first one replaced by `*`; nothing is replaced in words
that begin with `--`, or not with `-`. -/
def Starred (s t : Str) : Prop :=
  s.head? = t.head? ∧ List.Forall₂ (fun c c' => c' = c ∨ c' = '*') s t ∧ (s.head? ≠ some '-' ∨ s.take 2 = "--".toList → t = s)

end Ecl.Spec.CmdLineSaid
