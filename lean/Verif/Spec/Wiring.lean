import Verif.Model.SigSlots

/-!
# Signals, slots and topics: the reader's side

Which endpoint a handle stands for, and which endpoint publishes and subscribes to which topic,
as plain relations.  (Only the type of calls is taken from the model.)
-/
set_option autoImplicit false

namespace Ecl.Spec
open Ecl.SigSlots (Op)

structure Wiring where
  /-- The handles in existence and the endpoint each stands for. -/
  handles : List (Nat × Nat)
  /-- Endpoints constructed so far: `0, …, created-1`; which of them are signals. -/
  created : Nat
  signal : Nat → Bool
  pub : Nat → String → Prop
  sub : Nat → String → Prop

def Wiring.empty : Wiring := ⟨[], 0, fun _ => false, fun _ _ => False, fun _ _ => False⟩

namespace Wiring

/-- Handle `h` stands for endpoint `e`. -/
def At (g : Wiring) (h e : Nat) : Prop := (h, e) ∈ g.handles

/-- Some handle stands for `e`. -/
def Alive (g : Wiring) (e : Nat) : Prop := ∃ h, g.At h e

/-- Cut all connections of the endpoints in `P`. -/
def cut (g : Wiring) (P : Nat → Prop) : Wiring :=
  { g with pub := fun e t => g.pub e t ∧ ¬ P e, sub := fun e t => g.sub e t ∧ ¬ P e }

/-- The effect of a call. -/
def after (g : Wiring) : Op → Wiring
  | .newSignal h => { g with
      handles := g.handles ++ [(h, g.created)], created := g.created + 1,
      signal := fun e => if e = g.created then true else g.signal e }
  | .newSlot h => { g with
      handles := g.handles ++ [(h, g.created)], created := g.created + 1,
      signal := fun e => if e = g.created then false else g.signal e }
  | .copy h k => { g with handles := g.handles ++
      (g.handles.filter fun p => p.1 = k).map fun p => (h, p.2) }
  | .assign _ _ => g
  | .destroy h =>
    let g' := { g with handles := g.handles.filter fun p => p.1 ≠ h }
    g'.cut fun e => ¬ g'.Alive e
  | .connect h t => { g with pub := fun e u => g.pub e u ∨ (g.At h e ∧ u = t) }
  | .subscribe h t => { g with sub := fun e u => g.sub e u ∨ (g.At h e ∧ u = t) }
  | .disconnect h => g.cut fun e => g.At h e

/-- The one situation in which the code cannot disconnect an endpoint: it is both the only
publisher and the only subscriber of a topic. -/
def Lonely (g : Wiring) (e : Nat) : Prop :=
  ∃ t, g.pub e t ∧ g.sub e t ∧ ∀ x, g.pub x t ∨ g.sub x t → x = e

/-- Calls a program can make (objects exist when used, new ones are new), with three exclusions:
assignment between handles of different endpoints, and disconnecting or destroying a lonely
endpoint. -/
def Legal (g : Wiring) : Op → Prop
  | .newSignal h | .newSlot h => ∀ e, ¬ g.At h e
  | .copy h k => (∀ e, ¬ g.At h e) ∧ ∃ e, g.At k e
  | .assign h k => ∃ e, g.At h e ∧ g.At k e
  | .destroy h => ∃ e, g.At h e ∧ ((∀ k, g.At k e → k = h) → ¬ g.Lonely e)
  | .connect h _ | .subscribe h _ => ∃ e, g.At h e
  | .disconnect h => ∃ e, g.At h e ∧ ¬ g.Lonely e

/-- The wiring after a history. -/
def run (g : Wiring) : List Op → Wiring
  | [] => g
  | op :: ops => run (g.after op) ops

/-- Every call of a history is legal when it is made. -/
def AllLegal (g : Wiring) : List Op → Prop
  | [] => True
  | op :: ops => g.Legal op ∧ AllLegal (g.after op) ops

/-- `e` publishes a topic `x` subscribes to. -/
def Edge (g : Wiring) (e x : Nat) : Prop := ∃ t, g.pub e t ∧ g.sub x t

/-- `x` is reached from `e` directly or through signals that are subscribed as slots. -/
inductive Reach (g : Wiring) : Nat → Nat → Prop
  | direct {e x} : g.Edge e x → Reach g e x
  | relay {e s x} : g.Edge e s → g.signal s = true → Reach g s x → Reach g e x

end Wiring
end Ecl.Spec
