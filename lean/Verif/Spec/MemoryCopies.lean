import Verif.Model.MemoryCopies

/-!
# What shared memory handles are for

A handle shows a memory object from its construction to its destruction; there are no addresses.  `family` tells which handles
come from the same constructor call.
-/
set_option autoImplicit false

namespace Ecl.Spec.Mapped
open Ecl.Mapped

/-- What a handle is. -/
structure View where
  family : Nat
  object : Nat
  name : Nat
  made : Bool
  deriving DecidableEq, Repr

/-- The handles, what the names stand for, the contents of the objects, the number of objects and of constructor calls. -/
structure Plan where
  view : Nat → Option View
  name : Nat → Option Nat
  data : Nat → Nat
  objects : Nat
  families : Nat

/-- One entry changes. -/
def put {α : Type} (f : Nat → α) (k : Nat) (v : α) : Nat → α := fun x => if x = k then v else f x

/-- After a call: who made a name removes it on destruction. -/
def next (s : Plan) : Op → Plan
  | .make k n =>
    match s.name n with
    | some o => { s with view := put s.view k (some ⟨s.families, o, n, false⟩), families := s.families + 1 }
    | none =>
      ⟨put s.view k (some ⟨s.families, s.objects, n, true⟩), put s.name n (some s.objects), put s.data s.objects 0,
        s.objects + 1, s.families + 1⟩
  | .copy j k => { s with view := put s.view j (s.view k) }
  | .destroy k =>
    match s.view k with
    | none => s
    | some v => { s with view := put s.view k none, name := if v.made then put s.name v.name none else s.name }
  | .write k x =>
    match s.view k with
    | none => s
    | some v => { s with data := put s.data v.object x }
  | .read _ => s
  | .peer n x =>
    match s.name n with
    | none => s
    | some o => { s with data := put s.data o x }
  | .look _ => s

/-- What a call reads. -/
def reads (s : Plan) : Op → Option Nat
  | .read k => (s.view k).map fun v => s.data v.object
  | .look n => (s.name n).map s.data
  | _ => none

/-- No handles. -/
def nobody : Plan := ⟨fun _ => none, fun _ => none, fun _ => 0, 0, 0⟩

/-- After a history. -/
def plan (s : Plan) (ops : List Op) : Plan := ops.foldl next s

/-- What a history reads. -/
def readings (s : Plan) : List Op → List (Option Nat)
  | [] => []
  | x :: xs => reads s x :: readings (next s x) xs

/-- Handles are constructed once and used while they exist; none is destroyed while a copy of it, or what it is a copy of,
exists. -/
def Kept (s : Plan) : Op → Prop
  | .make k _ => s.view k = none
  | .copy j k => s.view j = none ∧ s.view k ≠ none
  | .destroy k => s.view k ≠ none ∧ ∀ j ≠ k, ∀ u v, s.view j = some u → s.view k = some v → u.family ≠ v.family
  | .write k _ => s.view k ≠ none
  | .read k => s.view k ≠ none
  | .peer _ _ => True
  | .look _ => True

/-- All calls of a history are of this kind. -/
def AllKept (s : Plan) : List Op → Prop
  | [] => True
  | x :: xs => Kept s x ∧ AllKept (next s x) xs

/-- A call that neither constructs a handle from a name nor concerns the handle `k`. -/
def Apart (k : Nat) : Op → Prop
  | .make _ _ => False
  | .copy j i => j ≠ k ∧ i ≠ k
  | .destroy j => j ≠ k
  | .write j _ => j ≠ k
  | .read j => j ≠ k
  | .peer _ _ => True
  | .look _ => True

end Ecl.Spec.Mapped
