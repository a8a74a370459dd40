import Verif.Core.Outcome
import Verif.Core.CInt

/-!
# Model of `ecl::Array` (`ecl_containers/include/ecl/containers/array/`)

An array's storage is a list of its elements; indices are `size_t` values (`Nat`).
The memory-checked variants have the same access functions
(`array_mem_check.hpp:275-330`, `array_dynamic_mem_check.hpp:420-475`).
-/
set_option autoImplicit false

namespace Ecl.Arr
variable {α : Type _}

/-- Raw memory read `elements[i]`: undefined outside the storage. The access behind
`array_no_mem_check.hpp:280,295,311,329` and the same expressions of the other array headers. -/
def rawGet (l : List α) (i : Nat) : Outcome α :=
  match l[i]? with
  | some a => .ok a
  | none => .ub

/-- Raw memory write `elements[i] = v`: undefined outside the storage. The access behind
`array_no_mem_check.hpp:280,311`. -/
def rawSet (l : List α) (i : Nat) (v : α) : Outcome (List α) :=
  if i < l.length then .ok (l.set i v) else .ub

/-- `operator[]` as an rvalue: `array_no_mem_check.hpp:278-296`,
`array_dynamic_no_mem_check.hpp:409-427`. -/
def get (m : Mode) (l : List α) (i : Nat) : Outcome α := do
  assertThrow m (i < l.length) .outOfRange
  rawGet l i

/-- `operator[]` as an lvalue that is assigned `v`: same lines. (`array_no_mem_check.hpp:278-281`,
`array_dynamic_no_mem_check.hpp:409-413`.) -/
def set (m : Mode) (l : List α) (i : Nat) (v : α) : Outcome (List α) := do
  assertThrow m (i < l.length) .outOfRange
  rawSet l i v

/-- `at(i)` as an rvalue: `array_no_mem_check.hpp:307-330`,
`array_dynamic_no_mem_check.hpp:438-461`.  The throw is a plain `throw`, independent of the
build mode. -/
def at' (l : List α) (i : Nat) : Outcome α :=
  if i ≥ l.length then .throw .outOfRange else rawGet l i

/-- `at(i) = v`: same lines. (`array_no_mem_check.hpp:307-312`,
`array_dynamic_no_mem_check.hpp:438-443`.) -/
def atSet (l : List α) (i : Nat) (v : α) : Outcome (List α) :=
  if i ≥ l.length then .throw .outOfRange else rawSet l i v

/-- `front()` of the fixed-size array: `array_no_mem_check.hpp:232-237`. -/
def frontFixed (l : List α) : Outcome α := rawGet l 0

/-- `back()` of the fixed-size array: `array_no_mem_check.hpp:242-247`
(`elements[Size-1]`, `Size-1` wraps for `Size = 0`). -/
def backFixed (l : List α) : Outcome α := rawGet l (u64 ((l.length : Int) - 1))

/-- A dynamic array: `none` is the `NULL` buffer (`array_dynamic_no_mem_check.hpp:156,516-518`). -/
abbrev Dyn (α : Type _) := Option (List α)

/-- `size()` of a dynamic array (`array_dynamic_no_mem_check.hpp:473`). -/
def Dyn.size (d : Dyn α) : Nat := (d.getD []).length

/-- `front()`: `array_dynamic_no_mem_check.hpp:346-359`. -/
def Dyn.front (m : Mode) (d : Dyn α) : Outcome α := do
  assertThrow m d.isSome .outOfRange
  rawGet (d.getD []) 0

/-- `back()`: `array_dynamic_no_mem_check.hpp:366-379` (`buffer_size-1` is `unsigned int`). -/
def Dyn.back (m : Mode) (d : Dyn α) : Outcome α := do
  assertThrow m d.isSome .outOfRange
  rawGet (d.getD []) (u32 ((d.size : Int) - 1))

/-- `operator[]`: `array_dynamic_no_mem_check.hpp:409-427`. -/
def Dyn.get (m : Mode) (d : Dyn α) (i : Nat) : Outcome α := Arr.get m (d.getD []) i

/-- `at`: `array_dynamic_no_mem_check.hpp:438-461`. -/
def Dyn.at' (d : Dyn α) (i : Nat) : Outcome α := Arr.at' (d.getD []) i

end Ecl.Arr
