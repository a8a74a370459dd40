import Verif.Spec.Time
import Verif.Model.Console

/-!
# What happens in the remaining cases of C19, C20 and C24
-/
set_option autoImplicit false

namespace Ecl.Spec.Remaining
open Ecl.Time

/-- The time stamp of a schedule: as the operating system wants it, but for full seconds. -/
def Clock (w : Ts) : Prop := 0 ≤ w.sec ∧ 0 ≤ w.nsec ∧ w.nsec ≤ 1000000000

/-- A wake-up time `w` asked for after `prev` by a call that reads the clock `rs`: one period later, if no reading is
beyond that; else one period after one of the readings that are not before that.  It is never before the last reading. -/
def Follows (p prev : Ts) (rs : List Ts) (w : Ts) : Prop :=
  Clock w ∧ (∃ last, rs.getLast? = some last ∧ last.total ≤ w.total) ∧
    ((w.total = prev.total + p.total ∧ ∀ r ∈ rs, r.total ≤ prev.total + p.total) ∨
      ∃ r ∈ rs, prev.total + p.total ≤ r.total ∧ w.total = r.total + p.total)

/-- All wake-up times of a history of calls. -/
def AllFollow (p : Ts) : Ts → List (List Ts) → List Ts → Prop
  | _, [], [] => True
  | prev, rs :: rss, w :: ws => (∃ used rest, rs = used ++ rest ∧ Follows p prev used w) ∧ AllFollow p w rss ws
  | _, _, _ => False

/-- The bytes up to the first NUL. -/
def upToNul (b : List Char) : List Char := b.takeWhile (· ≠ '\x00')

/-- Bytes collected one by one in blocks of 4095: the block begun, and what has been written. -/
def feed : List Char × List Char → List Char → List Char × List Char
  | s, [] => s
  | (b, out), c :: cs => if b.length + 1 = 4095 then feed ([], out ++ upToNul (b ++ [c])) cs else feed (b ++ [c], out) cs

/-- Calls of a console. -/
def feedAll : List Char × List Char → List Console.Op → List Char × List Char
  | s, [] => s
  | s, .put c :: ops => feedAll (feed s [c]) ops
  | s, .puts cs :: ops => feedAll (feed s cs) ops
  | (b, out), .flush :: ops => feedAll ([], out ++ upToNul b) ops

end Ecl.Spec.Remaining
