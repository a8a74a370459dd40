import Verif.Model.Opening

/-! # What the caller of `open` may rely on -/
set_option autoImplicit false

namespace Ecl.Opening

/-- With exceptions: `true`, or an exception with a flag that is an error.  Without: the result tells, and `error()` is set
exactly then. -/
def Told (b : Build) (good : Bool) (out : Called) (error : Flag) : Prop :=
  match b with
  | .throwing => if good then out = .gave true ∧ error = .noError else ∃ e, e ≠ .noError ∧ out = .threw e
  | .silent => out = .gave good ∧ (error = .noError ↔ good = true)

/-- A constructor of a stream: with exceptions it throws exactly if the device was not opened; without, `fail()` says it. -/
def StreamTold (b : Build) (good : Bool) (error : Option Flag) : Prop :=
  match b with
  | .throwing => error = if good then some .noError else none
  | .silent => ∃ e, error = some e ∧ (e = .noError ↔ good = true)

end Ecl.Opening
