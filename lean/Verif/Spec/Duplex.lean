import Verif.Model.Duplex

/-!
# Data races between a reading and a writing thread
-/
set_option autoImplicit false

namespace Ecl.Spec.Duplex
open Ecl.Duplex

/-- Both threads are about to use the same member, and one of them to change it. -/
def Race (w : World) : Prop :=
  ∃ x a b, (w.pc .reader).access = some (x, a) ∧ (w.pc .writer).access = some (x, b) ∧ (a = true ∨ b = true)

/-- With a system that may give these answers to the two threads, some schedule leads to a data race. -/
def Racy (c : Cls) (m : Mode) (can : Side → Answer → Prop) : Prop :=
  ∃ xs : List (Side × Answer), (∀ x ∈ xs, can x.1 x.2) ∧ Race (run c m World.start xs)

/-- The thread can come to set the error: its calls succeed (with connections to a server, only when reading), or fail in a build
that does not throw. -/
def SetsError (c : Cls) (m : Mode) (can : Side → Answer → Prop) (s : Side) : Prop :=
  can s .done ∧ ¬ (c = .client ∧ s = .writer) ∨ m = .release ∧ ((∃ f, can s (.failed f)) ∨ c = .serial ∧ can s .hangUp)

/-- The thread can come to close the device. -/
def Closes (c : Cls) (can : Side → Answer → Prop) (s : Side) : Prop := c ≠ .serial ∧ can s .hangUp

end Ecl.Spec.Duplex
