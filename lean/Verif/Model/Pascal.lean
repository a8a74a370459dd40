import Verif.Core.Outcome
import Verif.Core.CInt

/-!
# Pascal's triangle (`ecl_geometry/include/ecl/geometry/pascals_triangle.hpp`,
`ecl_geometry/src/lib/pascals_triangle.cpp`)

The array `coefficients` is filled from the front, so the entries written so far are a list and
`counter` is its length.  Entries not yet written are never read.  The entries are of type `int`:
a sum beyond its range is undefined behaviour.
-/
set_option autoImplicit false

namespace Ecl.Pascal

/-- Value written by one pass of the inner loop (`pascals_triangle.hpp:212-216`).  The two reads are
of positions already written; a read elsewhere would be undefined behaviour. -/
def entry (n i j : Nat) (acc : List Int) : Outcome Int :=
  if i = n + 1 ∨ j = 0 then .ok 1
  else
    match acc[acc.length - 1]?, acc[acc.length - (i + 1)]? with
    | some a, some b => if InInt (a + b) then .ok (a + b) else .ub
    | _, _ => .ub

/-- Inner loop (`211-218`), `left` passes from `j` on. -/
def fillRow (n i : Nat) : Nat → Nat → List Int → Outcome (List Int)
  | 0, _, acc => .ok acc
  | left + 1, j, acc => (entry n i j acc).bind fun v => fillRow n i left (j + 1) (acc ++ [v])

/-- Outer loop (`210-219`) from `i` down to 1. -/
def fillRows (n : Nat) : Nat → List Int → Outcome (List Int)
  | 0, acc => .ok acc
  | i + 1, acc => (fillRow n (i + 1) (i + 1) 0 acc).bind (fillRows n i)

/-- Constructor of the general template (`207-220`). -/
def generic (n : Nat) : Outcome (List Int) := fillRows n (n + 1) []

/-- Constructor of `PascalsTriangle<3>` (`pascals_triangle.cpp:24-29`). -/
def table3 : List Int := [1,1,1,1, 1,2,3, 1,3, 1]

/-- Constructor of `PascalsTriangle<5>` (`pascals_triangle.cpp:51-58`). -/
def table5 : List Int := [1,1,1,1,1,1, 1,2,3,4,5, 1,3,6,10, 1,4,10, 1,5, 1]

/-- `PascalsTriangle<N>` as the compiler picks it: the specialisations for 3 and 5, otherwise the
general template. -/
def coefficients (n : Nat) : Outcome (List Int) :=
  if n = 3 then .ok table3 else if n = 5 then .ok table5 else generic n

/-- Offset computed by `begin(index)` (`pascals_triangle.hpp:229-236`; `pascals_triangle.cpp:31-37`,
`60-66` for the specialisations): the sum of `N+1-i` over `i < index`. -/
def beginOffset (n : Nat) : Nat → Nat
  | 0 => 0
  | index + 1 => beginOffset n index + (n + 1 - index)

/-- Offset of `end(index)` (`pascals_triangle.hpp:244-252`; `pascals_triangle.cpp:38-45`, `67-74`):
the sum over `i ≤ index`, minus one, and the address one further on. -/
def endOffset (n index : Nat) : Nat := (beginOffset n (index + 1) - 1) + 1

/-- The entries from `begin(index)` up to `end(index)`. (`pascals_triangle.hpp:229-252`.) -/
def row (n index : Nat) (coeffs : List Int) : List Int :=
  (coeffs.drop (beginOffset n index)).take (endOffset n index - beginOffset n index)

end Ecl.Pascal
