import Verif.Model.Copies

/-!
# Objects that hold something, and copies of them: the reader's side

Only the types of calls are taken from the model.
-/
set_option autoImplicit false

namespace Ecl.Spec.Holders
open Ecl.Copies (HOp FOp)

/-- Which objects exist, and which of them hold something (`some true`). -/
abbrev Status := Nat → Option Bool

def put (f : Status) (o : Nat) (v : Option Bool) : Status := fun x => if x = o then v else f x

/-- The effect of a call. -/
def after (f : Status) : HOp → Status
  | .make o => put f o (some false)
  | .acquire o => put f o (some true)
  | .copy p o => put f p (f o)
  | .assign p o => put f p (f o)
  | .use _ => f
  | .renew _ => f
  | .close o => put f o (some false)
  | .destroy o => put f o none

def status (f : Status) : List HOp → Status
  | [] => f
  | x :: xs => status (after f x) xs

/-- Calls on objects that exist, constructors of objects that do not; objects acquire something only when they hold
nothing, and are copied or assigned only when they hold nothing. -/
def Single (f : Status) : HOp → Prop
  | .make o => f o = none
  | .acquire o => f o ≠ some true
  | .copy p o => f p = none ∧ f o = some false
  | .assign p o => f p = some false ∧ f o = some false
  | .use o => f o ≠ none
  | .renew o => f o ≠ none
  | .close o => f o ≠ none
  | .destroy o => f o ≠ none

def AllSingle (f : Status) : List HOp → Prop
  | [] => True
  | x :: xs => Single f x ∧ AllSingle (after f x) xs

/-- No objects. -/
def none_ : Status := fun _ => none

/-- The call concerns the object. -/
def Concerns (o : Nat) : HOp → Prop
  | .make x => x = o
  | .acquire x => x = o
  | .copy x y => x = o ∨ y = o
  | .assign x y => x = o ∨ y = o
  | .use x => x = o
  | .renew x => x = o
  | .close x => x = o
  | .destroy x => x = o

/-- How often a file was opened and not closed through handles that are alive: the number of `open` minus the number
of `destroy` since it was last closed. -/
def openings : Nat → List FOp → Nat
  | n, [] => n
  | n, .open _ :: xs => openings (n + 1) xs
  | n, .destroy _ :: xs => openings (n - 1) xs
  | n, _ :: xs => openings n xs

end Ecl.Spec.Holders
