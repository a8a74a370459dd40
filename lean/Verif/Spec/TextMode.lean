/-!
# Lines on Windows

A byte 10 ends a line; on disk, in a file that was opened as text, the end of a line is 13, 10.
-/
set_option autoImplicit false

namespace Ecl.Spec

/-- What a text file holds after these bytes were written. -/
def onDisk : List Nat → List Nat
  | [] => []
  | b :: l => if b = 10 then 13 :: 10 :: onDisk l else b :: onDisk l

end Ecl.Spec
