import Verif.Model.Descriptors

/-!
# What a device should do with descriptors
-/
set_option autoImplicit false

namespace Ecl.Spec
open Ecl.Desc

/-- The system never gives a descriptor that is in use. -/
def Fresh (alloc : List Nat → Nat) : Prop := ∀ used, alloc used ∉ used

/-- A device holds one descriptor while it is open and none otherwise. -/
def Balanced (isOpen : Bool) (os : Os) : Prop := os.mine.length = if isOpen then 1 else 0

/-- A history of calls of a file in which it is opened only when closed, and `fdopen` and `fclose` succeed. -/
def FileUse (alloc : List Nat → Nat) : File → List FOp → Prop
  | _, [] => True
  | s, op :: ops => (match op with
      | .open (.noStream _) => False
      | .open _ => s.isOpen = false
      | .close r => r = none
      | .other => True) ∧
    match s.step alloc op with
    | .ok s' _ => FileUse alloc s' ops
    | .throw s' _ => FileUse alloc s' ops
    | .ub => True

end Ecl.Spec
