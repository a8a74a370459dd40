import Verif.Model.SplineSizes

/-!
# How constructions from arrays of any sizes should and do end
-/
set_option autoImplicit false

namespace Ecl.Props
open SplineSizes

/-- How a construction ends that checks the sizes only by assertions, and accesses both arrays at every index of the
first one: refused in debug builds if the sizes differ; otherwise undefined if the second array is too short. -/
def sizesChecked (b : SplineSizes.Build) (nx ny : Nat) : Outcome Unit :=
  if nx = ny then .ok ()
  else if b = .debug then .throw .outOfRange
  else if nx < ny then .ok ()
  else .ub

/-- The end of a call without its value. -/
def endOf {α : Type _} : Outcome α → Outcome Unit
  | .ok _ => .ok ()
  | .throw e => .throw e
  | .ub => .ub

/-- The throwing builds. -/
def buildOf : Mode → SplineSizes.Build
  | .debug => .debug
  | .release => .release

end Ecl.Props
