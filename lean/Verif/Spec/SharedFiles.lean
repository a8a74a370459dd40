import Verif.Model.Files

/-!
# Specification: handles sharing files

The state is the list of living handles with the name of their file, the bytes a handle has not sent
yet, the bytes each file has received, and the log of files opened and closed.
-/
set_option autoImplicit false

namespace Ecl.Spec
open Shared (Op Out Ev)
variable {α : Type _}

structure Sharing (α : Type _) where
  live : List (Nat × Nat)
  pend : Nat → List α
  file : Nat → List α
  log : List Ev

def Sharing.init : Sharing α := ⟨[], fun _ => [], fun _ => [], []⟩

/-- The file of a handle. -/
def Sharing.nameOf (t : Sharing α) (h : Nat) : Option Nat := t.live.lookup h

/-- The whole 4096 byte blocks at the front of a list, and what is left. -/
def blocks (l : List α) : List α := l.take (l.length / 4096 * 4096)
def leftover (l : List α) : List α := l.drop (l.length / 4096 * 4096)

def setAt {β : Type _} (f : Nat → β) (i : Nat) (v : β) : Nat → β := fun j => if j = i then v else f j

/-- Handle `h` on file `n` takes `bs`: whole blocks go to the file. -/
def Sharing.take (t : Sharing α) (h n : Nat) (bs : List α) : Sharing α :=
  { t with pend := setAt t.pend h (leftover (t.pend h ++ bs)),
           file := setAt t.file n (t.file n ++ blocks (t.pend h ++ bs)) }

/-- One operation.  A file is opened with its first handle and closed with its last. -/
def shareStep (t : Sharing α) : Op α → Sharing α × Obs Out
  | .construct h n =>
    ({ t with live := (h, n) :: t.live, pend := setAt t.pend h [],
              log := if n ∈ t.live.map Prod.snd then t.log else t.log ++ [.opened n] }, .ok .unit)
  | .put h b =>
    match t.nameOf h with
    | some n => (t.take h n [b], .ok (.num 1))
    | none => (t, .error .unknownError)
  | .write h bs =>
    match t.nameOf h with
    | some n => (t.take h n bs, .ok (.num bs.length))
    | none => (t, .error .unknownError)
  | .flush h =>
    match t.nameOf h with
    | some n => ({ t with pend := setAt t.pend h [], file := setAt t.file n (t.file n ++ t.pend h) },
        .ok (.bool true))
    | none => (t, .error .unknownError)
  | .count h =>
    match t.nameOf h with
    | some n => (t, .ok (.num (t.live.countP fun p => p.2 = n)))
    | none => (t, .error .unknownError)
  | .destroy h =>
    match t.nameOf h with
    | some n =>
      let live := t.live.filter fun p => p.1 ≠ h
      ({ t with live := live,
                log := if n ∈ live.map Prod.snd then t.log else t.log ++ [.closed n] }, .ok .unit)
    | none => (t, .error .unknownError)
  | .default _ => (t, .error .unknownError)
  | .openFile _ _ => (t, .error .unknownError)

/-- Bytes handed to handle `h` by a call. -/
def sentTo (h : Nat) : Op α → List α
  | .put h' b => if h' = h then [b] else []
  | .write h' bs => if h' = h then bs else []
  | _ => []

end Ecl.Spec
