import Verif.Model.SharedMemory

/-!
# What users of shared memory expect

The words in which the properties of `ecl::SharedMemory` are stated.
-/
set_option autoImplicit false

namespace Ecl.SharedMemory

/-- The memory object a handle is connected to. -/
def Phase.object : Phase → Option Nat
  | .opened o _ | .mapped o _ | .sized o | .ready o _ => some o
  | _ => none

/-- The handle is the one that created the memory object. -/
def Phase.creator : Phase → Bool
  | .opened _ m | .mapped _ m | .ready _ m => m
  | .sized _ => true
  | _ => false

/-- The handle is connected to memory object `o`. -/
def Connected (s : Sys) (h o : Nat) : Prop :=
  ∃ x, s.handle h = some x ∧ x.phase.object = some o

/-- The constructor of the handle has returned, its destructor has not been called. -/
def Constructed (s : Sys) (h : Nat) : Prop :=
  ∃ x o m, s.handle h = some x ∧ x.phase = .ready o m

/-- The constructor of the handle that created the object has returned. -/
def Established (s : Sys) (h : Nat) : Prop :=
  ∃ x o, s.handle h = some x ∧ x.phase = .ready o true

/-- The actions that take the name away: `unlink()`, also as called by the destructor of the creator
and by a constructor that fails. -/
def Act.removes : Act → Bool
  | .unlink | .release | .map (some _) | .size false => true
  | _ => false

/-- No action of the history takes the name away. -/
def NameKept (es : List (Nat × Act)) : Prop := ∀ e ∈ es, e.2.removes = false

/-- All handles of the history have the storage type `k`. -/
def OneKind (k : Kind) (es : List (Nat × Act)) : Prop :=
  ∀ e ∈ es, ∀ k', e.2 = .construct k' → k' = k

/-- The last value a history stores in byte `i`. -/
def lastWrite (i : Nat) : List (Nat × Act) → Option UInt8
  | [] => none
  | e :: es =>
    match lastWrite i es with
    | some v => some v
    | none =>
      match e.2 with
      | .write j v => if j = i then some v else none
      | _ => none

/-- The actions of a constructor that finds no name, when every call succeeds. -/
def creation (h : Nat) (k : Kind) : List (Nat × Act) :=
  [(h, .construct k), (h, .create none), (h, .map none), (h, .size true), (h, .init)]

/-- The actions of a constructor that finds the name, when every call succeeds. -/
def attachment (h : Nat) (k : Kind) : List (Nat × Act) :=
  [(h, .construct k), (h, .create none), (h, .attach none), (h, .map none), (h, .size true)]

end Ecl.SharedMemory
