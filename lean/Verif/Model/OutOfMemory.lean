import Verif.Model.ArrayMore
import Verif.Model.StringDevice
import Verif.Model.SigSlots

/-!
# Allocation that fails

The same calls as in `Model/ArrayMore.lean` (`DynHeap`), `Model/StringDevice.lean` and
`Model/SigSlots.lean`, with every `new` told whether it succeeds.  `std::bad_alloc` is written as
the flag `memoryError`, an exception thrown by an element's own assignment as `unknownError`; the
caller catches both and goes on.  Addresses are never reused, so that a dangling pointer is
recognised.
-/
set_option autoImplicit false

namespace Ecl.Scarce

/-! ## Dynamic arrays (`array_dynamic_no_mem_check.hpp`, the release variant) -/

section
variable {α : Type}

/-- Blocks by address, the next fresh address and the array objects that exist
(`array_dynamic_no_mem_check.hpp:516-518`). -/
structure St (α : Type) where
  mem : Nat → Option (List α)
  next : Nat
  obj : Nat → Option DynHeap.Obj

/-- No array, nothing allocated. (Before the first use of
`array_dynamic_no_mem_check.hpp:156-184`.) -/
def St.init : St α := ⟨fun _ => none, 0, fun _ => none⟩

/-- A change of one block (`array_dynamic_no_mem_check.hpp:409-501`). -/
def St.setMem (s : St α) (p : Nat) (v : Option (List α)) : St α :=
  { s with mem := fun a => if a = p then v else s.mem a }

/-- A change of one object's members, or of its existence
(`array_dynamic_no_mem_check.hpp:156-223`, `516-518`). -/
def St.setObj (s : St α) (i : Nat) (o : Option DynHeap.Obj) : St α :=
  { s with obj := fun a => if a = i then o else s.obj a }

/-- `new Type[n]` (`array_dynamic_no_mem_check.hpp:166`, `487`): the address, or `bad_alloc`. -/
def St.alloc (s : St α) (n : Nat) (room : Bool) (junk : Nat → α) : Res (St α) Nat :=
  if room then
    .ok { s.setMem s.next (some ((List.range n).map junk)) with next := s.next + 1 } s.next
  else .throw s .memoryError

/-- `if ( buffer != NULL ) delete[] buffer;` (`array_dynamic_no_mem_check.hpp:220-222`, `484-486`,
`496-497`). -/
def St.release (s : St α) (o : DynHeap.Obj) : Res (St α) Unit :=
  match o.buf with
  | none => .ok s ()
  | some p => match s.mem p with
    | some _ => .ok (s.setMem p none) ()
    | none => .ub

/-- `resize(n)` (`array_dynamic_no_mem_check.hpp:483-489`): the old block is freed before the new
one is asked for, and the members are written only afterwards. -/
def St.resize (s : St α) (i : Nat) (o : DynHeap.Obj) (n : Nat) (room : Bool) (junk : Nat → α) :
    Res (St α) Unit :=
  (s.release o).bind fun s _ =>
    (s.alloc n room junk).bind fun s p => .ok (s.setObj i (some ⟨n, some p⟩)) ()

/-- `clear()` (`array_dynamic_no_mem_check.hpp:495-501`). -/
def St.clear (s : St α) (i : Nat) (o : DynHeap.Obj) : Res (St α) Unit :=
  (s.release o).bind fun s _ => .ok (s.setObj i (some ⟨0, none⟩)) ()

/-- `std::copy(array.begin(),array.end(),begin())` (`array_dynamic_no_mem_check.hpp:182`, `249`)
where the assignment of element number `stop` throws: the elements before it have been
assigned. -/
def St.copy (s : St α) (src dst : DynHeap.Obj) (stop : Option Nat) : Res (St α) Unit :=
  match src.buf, dst.buf with
  | some q, some p => match s.mem q, s.mem p with
    | some l, some d =>
      if src.size ≤ l.length ∧ src.size ≤ d.length then
        match stop with
        | some k =>
          if k < src.size then .throw (s.setMem p (some (l.take k ++ d.drop k))) .unknownError
          else .ok (s.setMem p (some (l.take src.size ++ d.drop src.size))) ()
        | none => .ok (s.setMem p (some (l.take src.size ++ d.drop src.size))) ()
      else .ub
    | _, _ => .ub
  | _, _ => .ub

/-- Calls on arrays; `room` tells whether `new` succeeds.
(`array_dynamic_no_mem_check.hpp:156-251`, `409-501`.) -/
inductive Op (α : Type) where
  | make (i : Nat)
  | makeOf (i n : Nat) (room : Bool) (junk : Nat → α)
  | makeCopy (i j : Nat) (room : Bool) (stop : Option Nat) (junk : Nat → α)
  | resize (i n : Nat) (room : Bool) (junk : Nat → α)
  | clear (i : Nat)
  | assign (i j : Nat) (room : Bool) (stop : Option Nat) (junk : Nat → α)
  | set (i k : Nat) (v : α)
  | get (i k : Nat)
  | size (i : Nat)
  | destroy (i : Nat)

/-- Their results. (`array_dynamic_no_mem_check.hpp:156-251`, `409-501`.) -/
inductive Out (α : Type) where
  | unit | value (a : α) | count (n : Nat)
  deriving DecidableEq, Repr

/-- A result without a value. (`array_dynamic_no_mem_check.hpp:156-251`, `483-501`.) -/
def done (r : Res (St α) Unit) : Res (St α) (Out α) := r.bind fun s _ => .ok s .unit

/-- One call.
* `make`, `makeOf` (`array_dynamic_no_mem_check.hpp:156`, `165-167`): a constructor that throws
  leaves no object;
* `makeCopy` (`175-184`): neither does this one, and the destructor is not run;
* `resize` (`483-489`), `clear` (`495-501`), `assign` (`244-251`), `destroy` (`219-223`);
* `set` (`409-412`, `operator[]` in a release build), `get` (`438-443`, `at`), `size` (`473`).

Calls on objects that do not exist, and constructions of objects that do, are undefined. -/
def step (s : St α) : Op α → Res (St α) (Out α)
  | .make i => match s.obj i with
    | none => .ok (s.setObj i (some ⟨0, none⟩)) .unit
    | some _ => .ub
  | .makeOf i n room junk => match s.obj i with
    | none => done ((s.alloc n room junk).bind fun s p => .ok (s.setObj i (some ⟨n, some p⟩)) ())
    | some _ => .ub
  | .makeCopy i j room stop junk => match s.obj i, s.obj j with
    | none, some src =>
      if src.size = 0 then .ok (s.setObj i (some ⟨0, none⟩)) .unit
      else done ((s.alloc src.size room junk).bind fun s p =>
        (s.copy src ⟨src.size, some p⟩ stop).bind fun s _ =>
          .ok (s.setObj i (some ⟨src.size, some p⟩)) ())
    | _, _ => .ub
  | .resize i n room junk => match s.obj i with
    | some o => done (s.resize i o n room junk)
    | none => .ub
  | .clear i => match s.obj i with
    | some o => done (s.clear i o)
    | none => .ub
  | .assign i j room stop junk => match s.obj i, s.obj j with
    | some o, some src =>
      if src.size = 0 then done (s.clear i o)
      else done ((s.resize i o src.size room junk).bind fun s _ =>
        match s.obj i, s.obj j with
        | some o, some src => s.copy src o stop
        | _, _ => .ub)
    | _, _ => .ub
  | .set i k v => match s.obj i with
    | some o => match o.buf with
      | some p => match s.mem p with
        | some l => if k < l.length then .ok (s.setMem p (some (l.set k v))) .unit else .ub
        | none => .ub
      | none => .ub
    | none => .ub
  | .get i k => match s.obj i with
    | some o =>
      if o.size ≤ k then .throw s .outOfRange
      else match o.buf with
      | some p => match s.mem p with
        | some l => match l[k]? with
          | some a => .ok s (.value a)
          | none => .ub
        | none => .ub
      | none => .ub
    | none => .ub
  | .size i => match s.obj i with
    | some o => .ok s (.count o.size)
    | none => .ub
  | .destroy i => match s.obj i with
    | some o => done ((s.release o).bind fun s _ => .ok (s.setObj i none) ())
    | none => .ub

end

/-! ## The text device (`ecl_devices/src/lib/string.cpp`) -/

/-- The device, or one whose pointers dangle, or one that has been destroyed.
(`string.hpp:196-200`.) -/
inductive Text where
  | live (d : StrDev)
  | dangling
  | gone
  deriving DecidableEq, Repr

/-- Calls: those of `StrDev`, with what `new` answers, and the destructor. (`string.cpp:35-163`.) -/
inductive TextOp where
  | call (op : StrDev.Op) (room : Bool)
  | destroy
  deriving DecidableEq, Repr

/-- Whether a call asks for memory: the growth of `write` (`string.cpp:128`, `144`) and `clear`
(`111`).  The temporary `std::string` of `str()` (`42-46`) is not considered. -/
def asks (d : StrDev) : StrDev.Op → Bool
  | .put _ => (d.w : Int) = d.len - 1
  | .puts cs => (d.w : Int) > d.len - 1 - cs.length
  | .clear => true
  | _ => false

/-- One call.  `grow` asks for the new block before it touches anything (`string.cpp:52`); `clear`
has freed the old one (`110-111`), and leaves all three pointers dangling.  Every call but the
constructor uses the pointers (`38-163`), the destructor frees the block (`35-37`). -/
def textStep (t : Text) : TextOp → Res Text StrDev.Out
  | .call op room => match t with
    | .live d =>
      if asks d op && !room then
        match op with
        | .clear => .throw .dangling .memoryError
        | _ => .throw (.live d) .memoryError
      else match StrDev.step d op with
        | .ok d a => .ok (.live d) a
        | .throw d e => .throw (.live d) e
        | .ub => .ub
    | _ => .ub
  | .destroy => match t with
    | .live _ => .ok .gone .unit
    | _ => .ub

/-! ## Signals and slots (`sigslot.hpp`, `manager.hpp`) -/

open SigSlots (World Topic Endpoint insertSet upd topicAt bump)

/-- Which insertion of `connectSignal` runs out of memory: of the topic (`manager.hpp:88`), of the
publisher (`90`) or of the publication (`sigslot.hpp:147`). -/
inductive SignalPoint where
  | topic | publisher | publication
  deriving DecidableEq, Repr

/-- What `connectSignal` has done when the insertion at `pt` throws (`sigslot.hpp:138-148`,
`manager.hpp:82-92`; `std::set::insert` and `std::map::insert` that throw change nothing).  An
insertion of something that is there may also throw, since the pair is built first. -/
def signalBroken (w : World) (e : Nat) (t : String) : SignalPoint → World
  | .topic => w
  | .publisher =>
    { w with topics := upd w.topics t (some (topicAt w t)), nextTopic := bump w t }
  | .publication =>
    { w with
      topics := upd w.topics t
        (some { topicAt w t with pubs := insertSet e (topicAt w t).pubs })
      nextTopic := bump w t }

/-- Which insertion of `connectSlot` runs out of memory: of the subscription (`sigslot.hpp:159`),
of the topic (`manager.hpp:107`) or of the subscriber (`109`). -/
inductive SlotPoint where
  | subscription | topic | subscriber
  deriving DecidableEq, Repr

/-- What `connectSlot` has done when the insertion at `pt` throws (`sigslot.hpp:156-163`,
`manager.hpp:101-110`), for an endpoint `E` that is not subscribed yet: the subscription is noted
first. -/
def slotBroken (w : World) (e : Nat) (E : Endpoint) (t : String) : SlotPoint → World
  | .subscription => w
  | .topic =>
    { w with eps := upd w.eps e (some { E with subscriptions := E.subscriptions ++ [t] }) }
  | .subscriber =>
    { w with
      topics := upd w.topics t (some (topicAt w t))
      nextTopic := bump w t
      eps := upd w.eps e (some { E with subscriptions := E.subscriptions ++ [t] }) }

end Ecl.Scarce
