/-!
# Happens-before and data races (C++11 [intro.races], [new.delete.dataraces])

An execution is the list of what threads did, in the order in which they did it.  What happens before what follows from the
order within each thread and from what orders threads: making a thread, mutexes, and memory that is given back and given
out again.  (Atomics are not needed: the code has none.)
-/
set_option autoImplicit false

namespace Ecl.Spec.Hb

inductive Act where
  | read (x : Nat) | write (x : Nat)
  | lock (m : Nat) | unlock (m : Nat)
  | spawn (t : Nat)
  | alloc (b : Nat) | free (b : Nat)
  deriving DecidableEq, Repr

abbrev Trace := List (Nat × Act)

/-- What a thread did. -/
def Runs (tr : Trace) (t : Nat) (acts : List Act) : Prop := (tr.filter fun e => e.1 = t).map Prod.snd = acts

/-- The action at one place happens before the one at another. -/
inductive Before (tr : Trace) : Nat → Nat → Prop where
  | thread {i j t : Nat} {a b : Act} : i < j → tr[i]? = some (t, a) → tr[j]? = some (t, b) → Before tr i j
  | spawn {i j t u : Nat} {b : Act} : i < j → tr[i]? = some (t, .spawn u) → tr[j]? = some (u, b) → Before tr i j
  | mutex {i j t u m : Nat} : i < j → tr[i]? = some (t, .unlock m) → tr[j]? = some (u, .lock m) → Before tr i j
  | memory {i j t u b : Nat} : i < j → tr[i]? = some (t, .free b) → tr[j]? = some (u, .alloc b) → Before tr i j
  | trans {i j k : Nat} : Before tr i j → Before tr j k → Before tr i k

/-- Two threads use `x`, one of them to write, and neither happens before the other. -/
def RaceAt (tr : Trace) (x i j : Nat) : Prop :=
  ∃ t u a b, tr[i]? = some (t, a) ∧ tr[j]? = some (u, b) ∧ t ≠ u ∧ (a = .read x ∨ a = .write x) ∧
    (b = .read x ∨ b = .write x) ∧ (a = .write x ∨ b = .write x) ∧ ¬ Before tr i j ∧ ¬ Before tr j i

end Ecl.Spec.Hb
