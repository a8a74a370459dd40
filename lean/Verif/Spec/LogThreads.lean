import Verif.Model.LogThreads

/-! # What is expected of several log streams on one file -/
set_option autoImplicit false

namespace Ecl.LogThreads.Spec
variable {α : Type _}

/-- The stream of an act. -/
def who : Act α → Nat
  | .say h _ | .endl h => h

/-- The lines that stream `h` finishes, if `cur` is what it has said since its last line; the acts of the others
do not matter. -/
def lines (nl : α) (h : Nat) (cur : List α) : List (Act α) → List (List α)
  | [] => []
  | .say h' text :: as => if h' = h then lines nl h (cur ++ text) as else lines nl h cur as
  | .endl h' :: as => if h' = h then (cur ++ [nl]) :: lines nl h [] as else lines nl h cur as

/-- What stream `h` has said since its last line in the end. -/
def unfinished (h : Nat) (cur : List α) : List (Act α) → List α
  | [] => cur
  | .say h' text :: as => if h' = h then unfinished h (cur ++ text) as else unfinished h cur as
  | .endl h' :: as => if h' = h then unfinished h [] as else unfinished h cur as

/-- Every line, with its newline, is shorter than the buffer. -/
def Short (nl : α) (acts : List (Act α)) : Prop :=
  ∀ h, (∀ l ∈ lines nl h [] acts, l.length < 4096) ∧ (unfinished h [] acts).length < 4096

/-- The result of a call that reports no failure. -/
def Good : Obs Shared.Out → Prop
  | .error _ | .ok (.bool false) => False
  | _ => True

/-- `file` consists of whole lines, and those of each stream are all there and in its order.  `order` tells
whose line each is. -/
def Untangled (nl : α) (acts : List (Act α)) (file : List α) (order : List (Nat × List α)) : Prop :=
  file = (order.map Prod.snd).flatten ∧
  ∀ h, (order.filter fun p => p.1 == h).map Prod.snd = lines nl h [] acts

end Ecl.LogThreads.Spec
