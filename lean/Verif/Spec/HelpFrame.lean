import Verif.Spec.LineBreaks

/-!
# The help as a document

A document is a list of paragraphs; a line is shown as it is, a text is broken into lines.
-/
set_option autoImplicit false

namespace Ecl.Spec.HelpFrame

inductive Para where
  | line (s : List Char)
  | text (indent offset : Nat) (s : List Char)
  deriving DecidableEq, Repr

/-- The lines show the document on 75 columns. -/
inductive Shows : List Para → List (List Char) → Prop where
  | nil : Shows [] []
  | line (s : List Char) (ps : List Para) (ls : List (List Char)) (h : Shows ps ls) : Shows (.line s :: ps) (s :: ls)
  | fits (i o : Nat) (s : List Char) (ps : List Para) (ls : List (List Char)) (hf : s.length + i ≤ 75) (h : Shows ps ls) :
      Shows (.text i o s :: ps) ((List.replicate i ' ' ++ s) :: ls)
  | broken (i o : Nat) (s : List Char) (ps : List Para) (l ls : List (List Char)) (hf : 75 < s.length + i)
      (hl : LaidOut 75 i (i + o) s l) (h : Shows ps ls) : Shows (.text i o s :: ps) (l ++ ls)

/-- The text does not begin with a word that is longer than the line. -/
def Breakable : Para → Prop
  | .line _ => True
  | .text i _ s => s.length + i ≤ 75 ∨ ∃ c ∈ s.take (75 - i + 1), c ∈ breaks

/-- An argument: how it is written and what it is for. -/
structure Entry where
  label : List Char
  descr : List Char
  deriving DecidableEq, Repr

def Entry.doc (e : Entry) : List Para := [.text 3 3 e.label, .text 5 0 e.descr]

/-- Arguments of which one has to be given. -/
def groupDoc (g : List Entry) : List Para :=
  List.intercalate [.text 9 0 "-- OR --".toList] (g.map Entry.doc) ++ [.line [], .line []]

/-- The help: how to call the program, its exclusive and its other arguments, and a closing message. -/
def helpDoc (offset : Nat) (call : List Char) (groups : List (List Entry)) (rest : List Entry) (message : List Char) :
    List Para :=
  [.line [], .line "USAGE: ".toList, .line [], .text 3 offset call, .line [], .line [], .line "Where: ".toList, .line []] ++
    groups.flatMap groupDoc ++ rest.flatMap (fun e => e.doc ++ [.line []]) ++
    [.line [], .text 3 0 message, .line []]

end Ecl.Spec.HelpFrame
