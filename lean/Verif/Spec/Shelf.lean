import Verif.Model.OutOfMemory

/-!
# Arrays on a shelf: what is in each, which are spoiled, how much is lost

The specification knows no heap.  A place of the shelf has no array, an array without storage, an
array of given elements, or a *spoiled* one: its storage is gone, but it still tells its old size.
-/
set_option autoImplicit false

namespace Ecl.Shelf
open Ecl.Scarce (Op Out)
variable {α : Type}

/-- A place. -/
inductive Place (α : Type) where
  | absent
  | bare
  | holds (l : List α)
  | spoiled (n : Nat)
  deriving DecidableEq, Repr

/-- The size an array tells. -/
def Place.size : Place α → Nat
  | .absent => 0
  | .bare => 0
  | .holds l => l.length
  | .spoiled n => n

/-- The elements that can be read. -/
def Place.elements : Place α → List α
  | .holds l => l
  | _ => []

/-- There is an array, and it is sound. -/
def Place.Sound : Place α → Prop
  | .bare => True
  | .holds _ => True
  | _ => False

/-- It is an array with storage. -/
def Place.stored : Place α → Bool
  | .holds _ => true
  | _ => false

/-- The places, and the number of blocks that nobody will ever free. -/
structure Shelf (α : Type) where
  place : Nat → Place α
  lost : Nat

/-- The empty shelf. -/
def Shelf.init : Shelf α := ⟨fun _ => .absent, 0⟩

/-- Put something at a place. -/
def Shelf.put (t : Shelf α) (i : Nat) (p : Place α) : Shelf α :=
  { t with place := fun a => if a = i then p else t.place a }

/-- An array whose storage was given back and could not be had again. -/
def Place.spoil : Place α → Place α
  | .holds l => .spoiled l.length
  | p => p

/-- The storage after the elements `l` were copied over `junk`, stopping before element `stop`. -/
def overlay (l : List α) (stop : Option Nat) (junk : Nat → α) : List α × Bool :=
  match stop with
  | some k => if k < l.length then (l.take k ++ ((List.range l.length).map junk).drop k, false)
    else (l, true)
  | none => (l, true)

/-- What each call does to the shelf and answers. -/
def spec (t : Shelf α) : Op α → Shelf α × Obs (Out α)
  | .make i => (t.put i .bare, .ok .unit)
  | .makeOf i n room junk =>
    if room then (t.put i (.holds ((List.range n).map junk)), .ok .unit)
    else (t, .error .memoryError)
  | .makeCopy i j room stop junk =>
    let l := (t.place j).elements
    if l = [] then (t.put i .bare, .ok .unit)
    else if !room then (t, .error .memoryError)
    else if (overlay l stop junk).2 then (t.put i (.holds l), .ok .unit)
    else ({ t with lost := t.lost + 1 }, .error .unknownError)
  | .resize i n room junk =>
    if room then (t.put i (.holds ((List.range n).map junk)), .ok .unit)
    else (t.put i (t.place i).spoil, .error .memoryError)
  | .clear i => (t.put i .bare, .ok .unit)
  | .assign i j room stop junk =>
    let l := (t.place j).elements
    if l = [] then (t.put i .bare, .ok .unit)
    else if !room then (t.put i (t.place i).spoil, .error .memoryError)
    else (t.put i (.holds (overlay l stop junk).1),
      if (overlay l stop junk).2 then .ok .unit else .error .unknownError)
  | .set i k v => (t.put i (.holds ((t.place i).elements.set k v)), .ok .unit)
  | .get i k => (t, match (t.place i).elements[k]? with
    | some a => .ok (.value a)
    | none => .error .outOfRange)
  | .size i => (t, .ok (.count (t.place i).size))
  | .destroy i => (t.put i .absent, .ok .unit)

/-- The calls a program may make: it constructs where nothing is, uses what is there, keeps to the
bounds of `operator[]`, does not assign an array to itself, and leaves spoiled arrays alone (but
for asking their size). -/
def allowed (t : Shelf α) : Op α → Prop
  | .make i => t.place i = .absent
  | .makeOf i _ _ _ => t.place i = .absent
  | .makeCopy i j _ _ _ => t.place i = .absent ∧ (t.place j).Sound
  | .resize i _ _ _ => (t.place i).Sound
  | .clear i => (t.place i).Sound
  | .assign i j _ _ _ => i ≠ j ∧ (t.place i).Sound ∧ (t.place j).Sound
  | .set i k _ => (t.place i).Sound ∧ k < (t.place i).size
  | .get i _ => (t.place i).Sound
  | .size i => t.place i ≠ .absent
  | .destroy i => (t.place i).Sound

/-- The calls that use the storage of a spoiled array: anything that would free it, reading or
writing one of its elements, copying from it once there is room for the copy. -/
def touches (t : Shelf α) : Op α → Prop
  | .make _ => False
  | .makeOf _ _ _ _ => False
  | .makeCopy i j room _ _ =>
    t.place i = .absent ∧ (∃ n, t.place j = .spoiled n ∧ 0 < n) ∧ room = true
  | .resize i _ _ _ => ∃ n, t.place i = .spoiled n
  | .clear i => ∃ n, t.place i = .spoiled n
  | .assign i j room _ _ =>
    (∃ n, t.place i = .spoiled n) ∧ t.place j ≠ .absent ∨
    (t.place i).Sound ∧ (∃ n, t.place j = .spoiled n ∧ 0 < n) ∧ room = true
  | .set i _ _ => ∃ n, t.place i = .spoiled n
  | .get i k => ∃ n, t.place i = .spoiled n ∧ k < n
  | .size _ => False
  | .destroy i => ∃ n, t.place i = .spoiled n

end Ecl.Shelf
