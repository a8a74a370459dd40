import Verif.Model.SigSlots
import Mathlib.Data.List.MinMax
import Mathlib.Data.String.Basic

/-!
# Model of `ecl_sigslots` with slots that change connections

As `Verif.Model.SigSlots`, but the function of a slot makes calls itself: on handles, and it emits.  The
program is a machine with a stack: running emissions, each with the two iterators of its loops, and
running functions, each with the calls it has still to make.  An iterator of a set or map is the key it
points to; it is invalid from the moment its element is erased, and `++` goes to the next key that is
there then.  The keys of the sets of subscribers are addresses: `addr`, different for different
endpoints (an address that is used again for a new endpoint is not modelled).

`process` locks the mutex of the endpoint and unlocks it after the function returned
(`sigslot.hpp:123-130`); the destructor of the endpoint locks it too (`91-95`), and does not get it while
a function of the endpoint runs.  In release builds the program stops there for good; in debug builds the
mutex reports the mistake (`mutex_pos.cpp:46`, `73`), and the exception ends the program because it
leaves a destructor.  Both are `stuck`.
-/
set_option autoImplicit false

namespace Ecl.SigSlots.Nested
open Ecl.SigSlots

/-- What the function of a slot does: a call on a handle, or an emission. (Functions run by
`sigslot.hpp:123-130`.) -/
inductive Act where
  | op (o : Op)
  | emit (h : Nat)
  deriving DecidableEq, Repr

/-- A running `emit` (`sigslot.hpp:106-116`, `269-279`): `pos` is the element of `publications` that
`topic_iter` points to, `cur` the one of `*subscribers` that `slots_iter` points to; `none` before the
loops have begun.  `outer` and `inner` tell whether the two are valid. -/
structure Frame where
  emitter : Nat
  pos : Option (String × Nat)
  cur : Option Nat
  outer : Bool
  inner : Bool
  deriving DecidableEq, Repr

/-- The entry of `emit`. (`sigslot.hpp:106-109`.) -/
def Frame.start (e : Nat) : Frame := ⟨e, none, none, true, true⟩

/-- A running `emit`, or a running function with the rest of its calls. (`sigslot.hpp:106-130`.) -/
inductive Item where
  | loop (f : Frame)
  | call (x : Nat) (acts : List Act)
  deriving DecidableEq, Repr

/-- What happened: a call on a handle; endpoint `x` was called by an emission of `e` on topic `t` that ran
within `depth` other items of the stack. (`sigslot.hpp:106-130`.) -/
inductive Event where
  | did (o : Op)
  | called (depth e : Nat) (t : String) (x : Nat)
  deriving DecidableEq, Repr

/-- The objects, the calls that have not returned (the innermost first), and what happened so far
(`sigslot.hpp:106-130`). -/
structure Machine where
  w : World
  stack : List Item
  log : List Event

/-- The next state, or why there is none. (`sigslot.hpp:106-130`.) -/
inductive Status where
  | running (m : Machine)
  | ub
  | stuck

/-- The element of the map that follows (`std::map::begin`, `++`). (`sigslot.hpp:109`.) -/
def nextKey (after : Option String) (ks : List String) : Option String :=
  (ks.filter fun k => match after with
    | none => true
    | some a => decide (a < k)).argmin id

/-- The element of the set that follows (`std::set::begin`, `++`). (`sigslot.hpp:111`.) -/
def nextSub (addr : Nat → Nat) (after : Option Nat) (l : List Nat) : Option Nat :=
  (l.filter fun y => match after with
    | none => true
    | some c => decide (addr c < addr y)).argmin addr

/-- Are the iterators still valid in the world `w`?. (The iterators of `sigslot.hpp:109-114`.) -/
def Frame.check (w : World) (f : Frame) : Frame :=
  match f.pos with
  | none => f
  | some (t, uid) =>
    { f with
      outer := f.outer && (match w.eps f.emitter with
        | none => false
        | some E => E.publications.any fun p => p.1 = t)
      inner := f.inner && (match w.topics t with
        | none => false
        | some T => T.uid = uid && (match f.cur with
          | none => true
          | some c => decide (c ∈ T.subs))) }

/-- The same for every running call (`sigslot.hpp:109-114`). -/
def Item.check (w : World) : Item → Item
  | .loop f => .loop (f.check w)
  | .call x acts => .call x acts

/-- Does a function of endpoint `x` run?. (`sigslot.hpp:123-130`.) -/
def isRunning (stack : List Item) (x : Nat) : Bool :=
  stack.any fun i => match i with
    | .loop _ => false
    | .call y _ => y = x

/-- What an endpoint does when it is called: the function bound to it (`script`), or for a signal its own
`emit` (`61-63`). -/
def onCall (script : Nat → List Act) (x : Nat) (X : Endpoint) : List Item :=
  if X.relay then [.loop (.start x), .call x []] else [.call x (script x)]

/-- A call on a handle by the running function. (From the function called at `sigslot.hpp:126`.) -/
def doOp (m : Machine) (x : Nat) (o : Op) (acts : List Act) (rest : List Item) : Status :=
  match step m.w o with
  | .ok w =>
    if w.deleted.any fun e => isRunning m.stack e then .stuck
    else .running ⟨w, (.call x acts :: rest).map (Item.check w), m.log ++ [.did o]⟩
  | _ => .ub

/-- The end of the inner loop: on to the next topic, or return. (`sigslot.hpp:109-115`.) -/
def nextTopic (m : Machine) (f : Frame) (rest : List Item) : Status :=
  if f.outer then
    match m.w.eps f.emitter with
    | none => .ub
    | some E =>
      match nextKey (f.pos.map Prod.fst) (E.publications.map Prod.fst) with
      | none => .running { m with stack := rest }
      | some t =>
        match E.publications.find? (fun p => p.1 = t) with
        | none => .ub
        | some p => .running { m with stack := .loop ⟨f.emitter, some p, none, true, true⟩ :: rest }
  else .ub

/-- One step of a running `emit`. (`sigslot.hpp:109-115`.) -/
def loopStep (addr : Nat → Nat) (script : Nat → List Act) (m : Machine) (f : Frame) (rest : List Item) : Status :=
  match f.pos with
  | none => nextTopic m f rest
  | some (t, uid) =>
    if f.inner then
      match m.w.topics t with
      | none => .ub
      | some T =>
        if T.uid = uid then
          match nextSub addr f.cur T.subs with
          | none => nextTopic m f rest
          | some x =>
            match m.w.eps x with
            | none => .ub
            | some X => .running ⟨m.w, onCall script x X ++ .loop { f with cur := some x } :: rest,
                m.log ++ [.called rest.length f.emitter t x]⟩
        else .ub
    else .ub

/-- One step of the program; a program that has come to its end stays there.
(`sigslot.hpp:106-130`.) -/
def next (addr : Nat → Nat) (script : Nat → List Act) (m : Machine) : Status :=
  match m.stack with
  | [] => .running m
  | .loop f :: rest => loopStep addr script m f rest
  | .call _ [] :: rest => .running { m with stack := rest }
  | .call x (.op o :: acts) :: rest => doOp m x o acts rest
  | .call x (.emit h :: acts) :: rest =>
    match handle h m.w.handles with
    | none => .ub
    | some e => .running { m with stack := .loop (.start e) :: .call x acts :: rest }

/-- The first `n` steps. (`sigslot.hpp:106-130`.) -/
def steps (addr : Nat → Nat) (script : Nat → List Act) : Nat → Machine → Status
  | 0, m => .running m
  | n + 1, m =>
    match next addr script m with
    | .running m => steps addr script n m
    | s => s

/-- The emission of endpoint `e` begins. (`sigslot.hpp:106`.) -/
def begin (w : World) (e : Nat) : Machine := ⟨w, [.loop (.start e)], []⟩

end Ecl.SigSlots.Nested
