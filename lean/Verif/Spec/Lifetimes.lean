import Verif.Model.Lifetimes

/-!
# When a program's threads only use what exists
-/
set_option autoImplicit false

namespace Ecl.Props
open Lifetimes

variable {α : Type}

/-- Whatever the scheduler does, nothing undefined happens. -/
def LifetimesSafe [DecidableEq α] (e : Env) (uses : Nat → List α) (ends : Nat → Bool)
    (prog : List (Lifetimes.Step α)) : Prop :=
  ∀ vs, Lifetimes.run e uses ends (St.init prog) vs ≠ some .ub

/-- A failed start of a thread makes an exception leave the block, destroying what exists. -/
def Env.unwinds (e : Env) : Prop := e.mode = .debug ∧ e.mayFail = true ∧ e.caught = true

/-- The rule for programs: whenever a thread is started,
* all it uses has been constructed before;
* it is waited for later, and before another thread is started if failing to start that one destroys everything
  (unless it uses nothing);
* it is waited for later in any case if the program goes on when it could not be started. -/
def LifetimesRule (e : Env) (uses : Nat → List α) (prog : List (Lifetimes.Step α)) : Prop :=
  ∀ before t after, prog = before ++ .start t :: after →
    (∀ p ∈ uses t, .obj p ∈ before) ∧
    (uses t ≠ [] → ∃ between rest, after = between ++ .join t :: rest ∧
      (Env.unwinds e → ∀ u, .start u ∉ between)) ∧
    (e.mode = .release → e.mayFail = true → .join t ∈ after)

/-- No thread is waited for twice. -/
def JoinedOnce (prog : List (Lifetimes.Step α)) : Prop :=
  ∀ before t after, prog = before ++ .join t :: after → .join t ∉ after

end Ecl.Props
