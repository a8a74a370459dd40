import Verif.Core.Outcome

/-!
# Model of `ecl_sigslots`

One `Data` type; one thread.  A SigSlot object (an *endpoint*) is a number, unique over the whole
history, a handle (`Signal` or `Slot` object) another.  `std::map<std::string,Topic>` and the heap
of endpoints are partial functions; the sets that are iterated are lists without repetition, whose
order (by address or by name in C++) is not modelled.  A pointer to a topic's subscriber set is
the serial number of the topic object; it dangles when that topic has been erased.  The functions
that slots call are assumed not to change connections while they run; the handle count does not
overflow (`unsigned int`, fewer than 2^32 handles); the mutex of `process` is
not modelled.
-/
set_option autoImplicit false

namespace Ecl.SigSlots

/-- `Topic` (`topic.hpp:118-121`); `uid` is the identity of the object. -/
structure Topic where
  uid : Nat
  pubs : List Nat
  subs : List Nat
  deriving DecidableEq, Repr

/-- `SigSlot` (`sigslot.hpp:192-199`): `relay` tells the default constructor's endpoint, whose
function is its own `emit` (`61-63`), from one that calls a user function (`69-82`). -/
structure Endpoint where
  relay : Bool
  handles : Nat
  subscriptions : List String
  publications : List (String × Nat)
  deriving DecidableEq, Repr

/-- The manager's topics, the endpoints, the handles, and serial numbers; `deleted` records the
endpoints deleted so far. (`manager.hpp:148`, `sigslot.hpp:192-199`.) -/
structure World where
  topics : String → Option Topic
  eps : Nat → Option Endpoint
  handles : List (Nat × Nat)
  nextTopic : Nat
  nextEp : Nat
  deleted : List Nat

/-- Before any call (`manager.hpp:148`: an empty map). -/
def World.empty : World := ⟨fun _ => none, fun _ => none, [], 0, 0, []⟩

/-- `std::set::insert`. (Used at `topic.hpp:68-77`, `sigslot.hpp:138-163`.) -/
def insertSet {α : Type} [DecidableEq α] (x : α) (l : List α) : List α :=
  if x ∈ l then l else l ++ [x]

/-- Assign to one key of a partial function. Change of one entry of a map (used at
`manager.hpp:82-128`). -/
def upd {κ α : Type} [DecidableEq κ] (f : κ → α) (k : κ) (v : α) : κ → α :=
  fun x => if x = k then v else f x

/-- `topics().insert(pair(topic, Topic(topic)))` (`manager.hpp:88-89`, `107-108`): the topic that
is there, or a new empty one. -/
def topicAt (w : World) (t : String) : Topic := (w.topics t).getD ⟨w.nextTopic, [], []⟩

/-- The serial number is used up when a topic is created. (`manager.hpp:88-89`, `107-108`.) -/
def bump (w : World) (t : String) : Nat :=
  if (w.topics t).isSome then w.nextTopic else w.nextTopic + 1

/-- `SigSlot::connectSignal` (`sigslot.hpp:138-148`, `302-312`) with
`SigSlotsManager::connectSignal` (`manager.hpp:82-92`); `publications.insert` keeps an entry that
is there. -/
def connectSignal (w : World) (e : Nat) (t : String) : Outcome World :=
  match w.eps e with
  | none => .ub
  | some E =>
    let T := topicAt w t
    .ok { w with
      topics := upd w.topics t (some { T with pubs := insertSet e T.pubs })
      nextTopic := bump w t
      eps := upd w.eps e (some { E with
        publications := if E.publications.any (·.1 = t) then E.publications
          else E.publications ++ [(t, T.uid)] }) }

/-- `SigSlot::connectSlot` (`sigslot.hpp:156-163`, `316-322`) with `SigSlotsManager::connectSlot`
(`manager.hpp:101-110`): nothing happens when already subscribed. -/
def connectSlot (w : World) (e : Nat) (t : String) : Outcome World :=
  match w.eps e with
  | none => .ub
  | some E =>
    if t ∈ E.subscriptions then .ok w
    else
      let T := topicAt w t
      .ok { w with
        topics := upd w.topics t (some { T with subs := insertSet e T.subs })
        nextTopic := bump w t
        eps := upd w.eps e (some { E with subscriptions := E.subscriptions ++ [t] }) }

/-- `Topic::disconnect` (`topic.hpp:86-95`). -/
def Topic.disconnect (T : Topic) (e : Nat) : Topic :=
  { T with pubs := T.pubs.erase e, subs := T.subs.erase e }

/-- `Topic::empty` (`topic.hpp:102-104`). -/
def Topic.empty (T : Topic) : Bool := T.pubs.length = 0 && T.subs.length = 0

/-- `SigSlotsManager::disconnect` (`manager.hpp:120-128`): `iter->second` is dereferenced even
when the topic was not found. -/
def disconnectTopic (e : Nat) (w : World) (t : String) : Outcome World :=
  match w.topics t with
  | none => .ub
  | some T =>
    let T := T.disconnect e
    .ok { w with topics := upd w.topics t (if T.empty then none else some T) }

/-- The two loops of `SigSlot::disconnect`. (`sigslot.hpp:177-188`, `339-350`.) -/
def disconnectList (e : Nat) : World → List String → Outcome World
  | w, [] => .ok w
  | w, t :: ts => do
    let w ← disconnectTopic e w t
    disconnectList e w ts

/-- `SigSlot::disconnect()` (`sigslot.hpp:177-188`, `339-350`). -/
def disconnect (w : World) (e : Nat) : Outcome World :=
  match w.eps e with
  | none => .ub
  | some E => do
    let w ← disconnectList e w E.subscriptions
    let w ← disconnectList e w (E.publications.map Prod.fst)
    .ok { w with eps := upd w.eps e (some { E with subscriptions := [], publications := [] }) }

/-- The endpoint of a handle. (The member at `signal.hpp:138`, `slot.hpp`.) -/
def handle (h : Nat) : List (Nat × Nat) → Option Nat
  | [] => none
  | (k, e) :: r => if k = h then some e else handle h r

/-- Calls on handles. (`signal.hpp:55-126`, `slot.hpp:58-164`.) -/
inductive Op where
  | newSignal (h : Nat)
  | newSlot (h : Nat)
  | copy (h k : Nat)
  | assign (h k : Nat)
  | destroy (h : Nat)
  | connect (h : Nat) (t : String)
  | subscribe (h : Nat) (t : String)
  | disconnect (h : Nat)
  deriving DecidableEq, Repr

/-- Construction of a handle with a fresh endpoint (`signal.hpp:55-57`, `slot.hpp:58-60`,
`86-89`); the constructors with a topic are a construction followed by a `connect`. -/
def create (w : World) (h : Nat) (relay : Bool) : World :=
  { w with
    handles := w.handles ++ [(h, w.nextEp)]
    eps := upd w.eps w.nextEp (some ⟨relay, 1, [], []⟩)
    nextEp := w.nextEp + 1 }

/-- Copy construction (`signal.hpp:77-80`, `slot.hpp:119-122`). -/
def copy (w : World) (h k : Nat) : Outcome World :=
  match handle k w.handles with
  | none => .ub
  | some e =>
    match w.eps e with
    | none => .ub
    | some E => .ok { w with
        handles := w.handles ++ [(h, e)]
        eps := upd w.eps e (some { E with handles := E.handles + 1 }) }

/-- Assignment (`signal.hpp:99-101`, `193-195`, `slot.hpp:140-142`, `268-270`): the pointer is
copied, nothing is counted. -/
def assign (w : World) (h k : Nat) : Outcome World :=
  match handle k w.handles, handle h w.handles with
  | some e, some _ =>
    .ok { w with handles := w.handles.map fun p => if p.1 = h then (h, e) else p }
  | _, _ => .ub

/-- `delete sigslot` (`sigslot.hpp:91-95`). -/
def delete (w : World) (e : Nat) : Outcome World := do
  let w ← disconnect w e
  .ok { w with eps := upd w.eps e none, deleted := w.deleted ++ [e] }

/-- Destruction of a handle (`signal.hpp:89-94`, `slot.hpp:131-136`); the count is unsigned. -/
def destroy (w : World) (h : Nat) : Outcome World :=
  match handle h w.handles with
  | none => .ub
  | some e =>
    match w.eps e with
    | none => .ub
    | some E =>
      let n := if E.handles = 0 then 4294967295 else E.handles - 1
      let w := { w with
        handles := w.handles.filter fun p => p.1 ≠ h
        eps := upd w.eps e (some { E with handles := n }) }
      if n = 0 then delete w e else .ok w

/-- A call through the handle's pointer. (`signal.hpp:111-126`, `slot.hpp:138-164`.) -/
def onHandle (w : World) (h : Nat) (f : Nat → Outcome World) : Outcome World :=
  match handle h w.handles with
  | none => .ub
  | some e => f e

/-- One call (`signal.hpp:55-126`, `slot.hpp:58-164`). -/
def step (w : World) : Op → Outcome World
  | .newSignal h => .ok (create w h true)
  | .newSlot h => .ok (create w h false)
  | .copy h k => copy w h k
  | .assign h k => assign w h k
  | .destroy h => destroy w h
  | .connect h t => onHandle w h fun e => connectSignal w e t
  | .subscribe h t => onHandle w h fun e => connectSlot w e t
  | .disconnect h => onHandle w h fun e => disconnect w e

/-- A history of calls. (`signal.hpp:55-126`, `slot.hpp:58-164`.) -/
def run : World → List Op → Outcome World
  | w, [] => .ok w
  | w, op :: ops => do
    let w ← step w op
    run w ops

/-- The subscribers a publication points to: undefined when the topic object is gone.
(`sigslot.hpp:109-115`, `272-278`.) -/
def deref (w : World) (p : String × Nat) : Outcome (List Nat) :=
  match w.topics p.1 with
  | some T => if T.uid = p.2 then .ok T.subs else .ub
  | none => .ub

/-- Run `f` on every element and collect the results. (The loops at `sigslot.hpp:106-116`,
`269-279`.) -/
def collect {α : Type} (f : α → Outcome (List Nat)) : List α → Outcome (List Nat)
  | [] => .ok []
  | x :: xs => do
    let a ← f x
    let b ← collect f xs
    .ok (a ++ b)

mutual
/-- `SigSlot::emit` (`sigslot.hpp:106-116`, `269-279`): the endpoints whose `process` is called, in
order of the calls; `fuel` bounds the depth of relaying, running out of it stands for exhausting
the stack. -/
def emit (w : World) (fuel : Nat) (e : Nat) : Outcome (List Nat) :=
  match fuel with
  | 0 => .ub
  | fuel + 1 =>
    match w.eps e with
    | none => .ub
    | some E => collect (fun p => do
        let subs ← deref w p
        collect (process w fuel) subs) E.publications
termination_by (fuel, 0)

/-- `SigSlot::process` (`sigslot.hpp:123-130`, `286-294`). -/
def process (w : World) (fuel : Nat) (e : Nat) : Outcome (List Nat) :=
  match w.eps e with
  | none => .ub
  | some E =>
    if E.relay then do
      let r ← emit w fuel e
      .ok (e :: r)
    else .ok [e]
termination_by (fuel, 1)
end

end Ecl.SigSlots
