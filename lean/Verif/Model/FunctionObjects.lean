import Verif.Core.Outcome
import Mathlib.Logic.Function.Basic

/-!
# Model of function objects

`ecl_utilities/include/ecl/utilities/function_objects.hpp`, `ecl_utilities/include/ecl/utilities/references.hpp`.
Values of all types are integers; objects and variables of the program are cells, alive or not.  A function with a
parameter by value is a function of its value; one with a parameter by reference, and a member function, also gives
the new content of the cell.  Function objects without bound parts (`NullaryFreeFunction`, `UnaryFreeFunction`,
`NullaryMemberFunction`, `UnaryMemberFunction`: `126-263`, `390-554`) only pass on what they are called with
and are not represented.
-/
set_option autoImplicit false

namespace Ecl.FunObj

/-- Function objects with bound parts.
* `value`: `BoundUnaryFreeFunction<A,R>` (`291-354`), `A` a type of values: `argument` is a copy.
* `arg`: the same, `A` a type of references: `argument` refers to what was bound.
* `member`: `BoundNullaryMemberFunction` (`585-654`), `PartiallyBoundUnaryMemberFunction` (`684-714`) once its
  argument is given: `member_class` is a reference.
* `memberValue`: `BoundUnaryMemberFunction` (`743-775`), `A` a type of values.
* `copy`: `NullaryFunctionCopy`, `UnaryFunctionCopy` (`854-919`, `1015-1080`): `function_object` is a copy, with a state
  of its own.
* `reference`: `NullaryFunctionReference`, `UnaryFunctionReference` (`934-999`, `1095-1161`). -/
inductive Obj where
  | value (f : Int → Int) (v : Int)
  | arg (g : Int → Int × Int) (a : Nat)
  | member (g : Int → Int × Int) (a : Nat)
  | memberValue (g : Int → Int → Int × Int) (a : Nat) (v : Int)
  | copy (g : Int → Int × Int) (v : Int)
  | reference (g : Int → Int × Int) (a : Nat)

/-- How a function object is made; `a` and `b` are cells of the program.
(`function_objects.hpp:1179-1370`.) -/
inductive Make where
  | value (f : Int → Int) (a : Nat)
  | arg (g : Int → Int × Int) (a : Nat)
  | temporary (g : Int → Int × Int) (v : Int)
  | member (g : Int → Int × Int) (a : Nat)
  | memberValue (g : Int → Int → Int × Int) (a b : Nat)
  | copy (g : Int → Int × Int) (a : Nat)
  | reference (g : Int → Int × Int) (a : Nat)

/-- The variables of the program and its function objects (the classes of
`function_objects.hpp:126-1161`). -/
structure World where
  cells : Nat → Option Int
  objs : Nat → Option Obj

/-- Steps of a program: variables come, change and go, function objects are made, called and dropped, and member
functions are called on a variable directly. (The calls of `function_objects.hpp:126-1370`; what
happens to the variables is the user's.) -/
inductive Op where
  | create (a : Nat) (v : Int)
  | set (a : Nat) (v : Int)
  | destroy (a : Nat)
  | make (i : Nat) (k : Make)
  | drop (i : Nat)
  | call (i : Nat)
  | direct (g : Int → Int × Int) (a : Nat)

/-- Access to a cell: undefined when it is not alive. (The parts bound at
`function_objects.hpp:291-354, 585-775, 934-999, 1095-1161`.) -/
def read (w : World) (a : Nat) : Outcome Int :=
  match w.cells a with
  | some v => .ok v
  | none => .ub

/-- A function that has its parameter, or its object, in a cell. (`function_objects.hpp:312, 349,
609, 649, 708, 768, 957, 995`.) -/
def onCell (w : World) (g : Int → Int × Int) (a : Nat) : Outcome (World × Int) :=
  read w a >>= fun v =>
  .ok ({ w with cells := Function.update w.cells a (some (g v).1) }, (g v).2)

/-- `generateFunctionObject` and the constructors (`1179-1370`).  `temporary`: the parameter is a `const T&` and what
is bound is a value, or has to be converted: `argument` refers to an object that is gone at the end of the
expression (`1238-1241`); the cell of number `a` stands for it, which no variable has. -/
def make (w : World) : Make → Outcome Obj
  | .value f a => read w a >>= fun v => .ok (.value f v)
  | .arg g a => read w a >>= fun _ => .ok (.arg g a)
  | .temporary g _ => .ok (.arg g 0)
  | .member g a => read w a >>= fun _ => .ok (.member g a)
  | .memberValue g a b => read w a >>= fun _ => read w b >>= fun v => .ok (.memberValue g a v)
  | .copy g a => read w a >>= fun v => .ok (.copy g v)
  | .reference g a => read w a >>= fun _ => .ok (.reference g a)

/-- `operator()` (`312`, `349`, `609`, `649`, `708`, `768`, `878`, `915`, `957`, `995`). -/
def call (w : World) (i : Nat) (o : Obj) : Outcome (World × Int) :=
  match o with
  | .value f v => .ok (w, f v)
  | .arg g a => onCell w g a
  | .member g a => onCell w g a
  | .memberValue g a v => onCell w (fun c => g c v) a
  | .copy g v => .ok ({ w with objs := Function.update w.objs i (some (.copy g (g v).1)) }, (g v).2)
  | .reference g a => onCell w g a

/-- One step, with the result of a call.  Cell 0 is no variable (see `make`).  What is not there cannot be used. -/
def step (w : World) : Op → Outcome (World × Option Int)
  | .create a v => if a = 0 ∨ (w.cells a).isSome then .ub else .ok ({ w with cells := Function.update w.cells a (some v) }, none)
  | .set a v => read w a >>= fun _ => .ok ({ w with cells := Function.update w.cells a (some v) }, none)
  | .destroy a => read w a >>= fun _ => .ok ({ w with cells := Function.update w.cells a none }, none)
  | .make i k => make w k >>= fun o => .ok ({ w with objs := Function.update w.objs i (some o) }, none)
  | .drop i => .ok ({ w with objs := Function.update w.objs i none }, none)
  | .call i =>
    match w.objs i with
    | none => .ub
    | some o => call w i o >>= fun r => .ok (r.1, some r.2)
  | .direct g a => onCell w g a >>= fun r => .ok (r.1, some r.2)

/-- A history and the results of its calls. (Sequences of the calls of
`function_objects.hpp:126-1370`.) -/
def run : World → List Op → Outcome (World × List (Option Int))
  | w, [] => .ok (w, [])
  | w, op :: ops => step w op >>= fun r => run r.1 ops >>= fun q => .ok (q.1, r.2 :: q.2)

/-- At the beginning. (The user's program; no lines 1-125 of `function_objects.hpp` create
objects.) -/
def World.init : World := ⟨fun _ => none, fun _ => none⟩

end Ecl.FunObj
