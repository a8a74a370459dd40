import Verif.Model.SharedDisk

/-!
# What a user of a shared file is told
-/
set_option autoImplicit false

namespace Ecl.Props
open SharedDisk
variable {α : Type _}

namespace C139

/-- The bytes given to a call. -/
def given : SharedDisk.Op α → List α
  | .put c => [c]
  | .write cs => cs
  | .flush => []

/-- What a call returns that succeeds. -/
def success : SharedDisk.Op α → Int
  | .put _ => 1
  | .write cs => cs.length
  | .flush => 1

/-- `l` consists of what the calls say they have taken: a call that returns a number, that many of its bytes; a call
that throws, some of its first bytes. -/
inductive Takes : List (SharedDisk.Op α) → List (Obs Int) → List α → Prop
  | none : Takes [] [] []
  | said {ops rs l} (op : SharedDisk.Op α) (n : Int) : Takes ops rs l →
      Takes (op :: ops) (.ok n :: rs) ((given op).take n.toNat ++ l)
  | thrown {ops rs l} (op : SharedDisk.Op α) (k : Nat) : Takes ops rs l →
      Takes (op :: ops) (.error .writeError :: rs) ((given op).take k ++ l)

/-- The state after `q` blocks have been taken. -/
def fine (s : St α) (all : List α) (q : Nat) : St α :=
  ⟨all.drop (q * 4096), s.out ++ all.take (q * 4096), s.asked + q, if q = 0 then s.err else .noError⟩

/-- The result when block `j` is refused after `k` bytes. -/
def refused (m : Mode) (s : St α) (all : List α) (j k : Nat) : Res (St α) Int :=
  let block := (all.drop (j * 4096)).take 4096
  match m with
  | .debug => .throw ⟨block, s.out ++ all.take (j * 4096) ++ block.take k, s.asked + j + 1,
      if j = 0 then s.err else .noError⟩ .writeError
  | .release => .ok ⟨[], s.out ++ all.take (j * 4096) ++ block.take k, s.asked + j + 1, .writeError⟩ (-1)

end C139

end Ecl.Props
