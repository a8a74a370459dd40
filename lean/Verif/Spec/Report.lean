import Verif.Core.Outcome

/-!
# What an exception report should look like
-/
set_option autoImplicit false

namespace Ecl.Spec

/-- Lines of text, each ended by a newline. -/
def unlines (l : List (List Char)) : List Char := l.flatMap (· ++ ['\n'])

/-- The report: an empty line, the locations from the outermost to the innermost, the flag, the
detail if there is one, and further lines. -/
def reportLines (locations : List (List Char)) (flag : List Char) (detail : List Char)
    (more : List (List Char)) : List (List Char) :=
  [[]] ++
  (match locations with
    | [] => []
    | l :: ls => ("Location : ".toList ++ l) :: ls.map ("         : ".toList ++ ·)) ++
  ["Flag     : ".toList ++ flag] ++
  (if detail = [] then [] else ["Detail   : ".toList ++ detail]) ++ more

/-- Reading the lines of a text back. -/
def linesOf : List Char → List Char → List (List Char)
  | acc, [] => if acc = [] then [] else [acc]
  | acc, c :: s => if c = '\n' then acc :: linesOf [] s else linesOf (acc ++ [c]) s

end Ecl.Spec
