/-!
# Model of `ecl_utilities/include/ecl/utilities/flags.hpp`

`value` is an `int` of 32 bits.  Enumerators are given by the `int` they convert to.
-/
set_option autoImplicit false

namespace Ecl.Flags

/-- `Flags<Enum>` (`flags.hpp:64-278`). -/
structure T where
  value : BitVec 32
  deriving DecidableEq, Repr

/-- Constructors (`71-73`). -/
def new : T := ⟨0⟩
/-- Constructor from an enumerator (`flags.hpp:71-73`). -/
def ofEnum (flag : BitVec 32) : T := ⟨flag⟩

/-- `clear` (`80`). -/
def clear (_ : T) : T := ⟨0⟩

/-- `testFlag` (`84-98`). -/
def testFlag (f : T) (flag : BitVec 32) : Bool :=
  if f.value &&& flag ≠ 0 then true
  else if flag = 0 ∧ f.value = 0 then true
  else false

/-- `operator&(int)`, `operator&(Enum)` (`117-133`); also used for `Flags & Flags` through
`operator int`. -/
def and (f : T) (mask : BitVec 32) : T := ⟨f.value &&& mask⟩

/-- `operator|` (`139-155`, `272-275`). -/
def or (f g : T) : T := ⟨f.value ||| g.value⟩
/-- `operator|` with an enumerator (`flags.hpp:139-155`). -/
def orEnum (f : T) (flag : BitVec 32) : T := ⟨f.value ||| flag⟩

/-- `operator^` (`161-177`). -/
def xor (f g : T) : T := ⟨f.value ^^^ g.value⟩
/-- `operator^` with an enumerator (`flags.hpp:161-177`). -/
def xorEnum (f : T) (flag : BitVec 32) : T := ⟨f.value ^^^ flag⟩

/-- `operator~` (`183-188`). -/
def not (f : T) : T := ⟨~~~ f.value⟩

/-- The modifying operators (`198-262`). -/
inductive Op where
  | assign (g : T) | assignEnum (flag : BitVec 32) | andAssign (mask : BitVec 32) | orAssign (g : T)
  | orAssignEnum (flag : BitVec 32) | xorAssign (g : T) | xorAssignEnum (flag : BitVec 32) | clear
  deriving DecidableEq, Repr

/-- Effect of a modifying operator (`flags.hpp:198-262`). -/
def step (f : T) : Op → T
  | .assign g => ⟨g.value⟩
  | .assignEnum flag => ⟨flag⟩
  | .andAssign mask => ⟨f.value &&& mask⟩
  | .orAssign g => ⟨f.value ||| g.value⟩
  | .orAssignEnum flag => ⟨f.value ||| flag⟩
  | .xorAssign g => ⟨f.value ^^^ g.value⟩
  | .xorAssignEnum flag => ⟨f.value ^^^ flag⟩
  | .clear => Flags.clear f

end Ecl.Flags
