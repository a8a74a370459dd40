import Verif.Model.SigSlotWires

/-!
# Connections, and calls that keep out of each other's way

From the model only the calls and the tables are taken.
-/
set_option autoImplicit false

namespace Ecl.Spec.Wiring
open Ecl.SigSlots.Wires (Call Cell Mem num State Event Result)

/-! ## Who is connected to what -/

/-- Handles of each endpoint, who publishes and who subscribes to which topic. -/
structure Net where
  handles : Nat → Nat
  pub : Nat → Nat → Prop
  sub : Nat → Nat → Prop

namespace Net

def empty : Net := ⟨fun _ => 0, fun _ _ => False, fun _ _ => False⟩

/-- Without the connections of `e`. -/
def cut (g : Net) (e : Nat) : Net := { g with pub := fun x t => g.pub x t ∧ x ≠ e, sub := fun x t => g.sub x t ∧ x ≠ e }

def setHandles (g : Net) (e n : Nat) : Net := { g with handles := fun x => if x = e then n else g.handles x }

/-- The effect of a call. -/
def after (g : Net) : Call → Net
  | .create e => g.setHandles e 1
  | .copy e => g.setHandles e (g.handles e + 1)
  | .drop e => if g.handles e = 1 then (g.setHandles e 0).cut e else g.setHandles e (g.handles e - 1)
  | .connect e t => { g with pub := fun x u => g.pub x u ∨ (x = e ∧ u = t) }
  | .subscribe e t => { g with sub := fun x u => g.sub x u ∨ (x = e ∧ u = t) }
  | .disconnect e => g.cut e
  | .emit _ => g

/-- `e` is both the only publisher and the only subscriber of a topic (see C30). -/
def Lonely (g : Net) (e : Nat) : Prop := ∃ t, g.pub e t ∧ g.sub e t ∧ ∀ x, g.pub x t ∨ g.sub x t → x = e

/-- Endpoints exist when they are used, new ones are new, and lonely ones are not disconnected. -/
def Legal (g : Net) : Call → Prop
  | .create e => g.handles e = 0
  | .drop e => 0 < g.handles e ∧ (g.handles e = 1 → ¬ g.Lonely e)
  | .disconnect e => 0 < g.handles e ∧ ¬ g.Lonely e
  | .copy e | .connect e _ | .subscribe e _ | .emit e => 0 < g.handles e

def run (g : Net) : List Call → Net
  | [] => g
  | c :: cs => run (g.after c) cs

def AllLegal (g : Net) : List Call → Prop
  | [] => True
  | c :: cs => g.Legal c ∧ AllLegal (g.after c) cs

end Net

/-- What a call returns: an emission calls every slot once for each topic that connects it; the endpoint goes with its
last handle. -/
def Expected (g : Net) : Call → Result → Prop
  | .emit e, r => ∃ called, r = .done called false ∧
      ∀ x, ∀ ts : List Nat, ts.Nodup → (∀ t, t ∈ ts ↔ g.pub e t ∧ g.sub x t) → called.count x = ts.length
  | .drop e, r => ∃ deleted, r = .done [] deleted ∧ (deleted = true ↔ g.handles e = 1)
  | _, r => r = .done [] false

/-- The tables say what the net is: each connection is noted once with the topic and once with the endpoint, and there
are no topics without connections. -/
structure Describes (m : Mem) (g : Net) : Prop where
  handles : ∀ x, num (m (.handles x)) = g.handles x
  topics : (m .topics).Nodup ∧ ∀ t, t ∈ m .topics ↔ ∃ x, g.pub x t ∨ g.sub x t
  pubs : ∀ t, (m (.pubs t)).Nodup ∧ ∀ x, x ∈ m (.pubs t) ↔ g.pub x t
  subs : ∀ t, (m (.subs t)).Nodup ∧ ∀ x, x ∈ m (.subs t) ↔ g.sub x t
  publications : ∀ x, (m (.publications x)).Nodup ∧ ∀ t, t ∈ m (.publications x) ↔ g.pub x t
  subscriptions : ∀ x, (m (.subscriptions x)).Nodup ∧ ∀ t, t ∈ m (.subscriptions x) ↔ g.sub x t

/-- Calls made one after the other: their results and the memory in the end. -/
def serial (m : Mem) : List Call → List Result × Mem
  | [] => ([], m)
  | c :: cs => ((c.prog.run m).1 :: (serial (c.prog.run m).2 cs).1, (serial (c.prog.run m).2 cs).2)

/-! ## Calls that overlap in time -/

/-- The endpoint a call is made on. -/
def endpoint : Call → Nat
  | .create e | .copy e | .drop e | .connect e _ | .subscribe e _ | .disconnect e | .emit e => e

/-- The call may change connections. -/
def Rewires (m : Mem) : Call → Prop
  | .connect _ _ | .subscribe _ _ | .disconnect _ => True
  | .drop e => num (m (.handles e)) ≤ 1
  | _ => False

/-- The topics it is concerned with. -/
def topicsOf (m : Mem) : Call → List Nat
  | .connect _ t | .subscribe _ t => [t]
  | .disconnect e => m (.subscriptions e) ++ m (.publications e)
  | .drop e => if num (m (.handles e)) ≤ 1 then m (.subscriptions e) ++ m (.publications e) else []
  | .emit e => m (.publications e)
  | _ => []

/-- The slots it calls. -/
def Reached (m : Mem) (c : Call) (s : Nat) : Prop := ∃ e, c = .emit e ∧ ∃ t ∈ m (.publications e), s ∈ m (.subs t)

/-- Two calls (each with the tables when it begins) that may overlap in time: they are made on different endpoints; not
both change connections; if one does, the other is concerned with other topics; and they call no slot in common. -/
def Separate (m : Mem) (c : Call) (m' : Mem) (c' : Call) : Prop :=
  endpoint c ≠ endpoint c' ∧ ¬ (Rewires m c ∧ Rewires m' c') ∧
    (Rewires m c ∨ Rewires m' c' → ∀ t ∈ topicsOf m c, t ∉ topicsOf m' c') ∧
    ∀ s, Reached m c s → ¬ Reached m' c' s

/-- A call is begun only if it is separate from those that are going on. -/
def Orderly (s : State) : Event → Prop
  | .start i c => s.th i = none → ∀ j a, s.th j = some a → Separate a.tables a.call s.mem c
  | .step _ => True

/-- All along a history. -/
def AllOrderly (s : State) : List Event → Prop
  | [] => True
  | e :: es => Orderly s e ∧ AllOrderly (SigSlots.Wires.step s e) es

/-- No call is going on. -/
def Idle (s : State) : Prop := ∀ i, s.th i = none

end Ecl.Spec.Wiring
