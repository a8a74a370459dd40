import Verif.Core.Outcome
import Mathlib.Analysis.SpecialFunctions.Log.Basic
import Mathlib.Data.Real.Sqrt

/-!
# Model of `ecl::RandomNumberGenerator`

`ecl_time/include/ecl/time/random_number_generator.hpp`.  A floating point number is its value, every
operation is the exact one followed by the rounding `fl`; `log` and `sqrt` are assumed to be rounded
like the others.  A generator object has no members: all state is that of the C library's `rand` and
the static variables of `gaussian`.
-/
set_option autoImplicit false

namespace Ecl.Rng

/-- `RAND_MAX` (glibc). (Used at `random_number_generator.hpp:56-87`.) -/
def randMax : Nat := 2147483647

/-- The C library's generator: the numbers `rand` gives one after the other after `srand(seed)`.
(Behind `random_number_generator.hpp:41-87`.) -/
abbrev Lib := Nat → Nat → Nat

/-- The state of a program: the seed given last to `srand`, how many numbers were drawn since, and the
variables `use_last` and `y2` (`random_number_generator.hpp:64-65`; `none`: `use_last` is false).  The
value `none` is NaN. -/
structure World where
  seed : Nat
  drawn : Nat
  last : Option (Option ℝ)

/-- Constructor with a seed (`random_number_generator.hpp:41-44`).  The default constructor computes a
seed from clocks and the process number (`46-49`, `108-129`) and is the same otherwise. -/
def construct (seed : Nat) (s : World) : World := { s with seed := seed, drawn := 0 }

/-- `rand()`. (Behind `random_number_generator.hpp:51-87`.) -/
def rand (lib : Lib) (s : World) : Nat × World := (lib s.seed s.drawn, { s with drawn := s.drawn + 1 })

/-! ## Floating point types -/

/-- `uniform()` (`random_number_generator.hpp:56-59`). -/
noncomputable def uniform (fl : ℝ → ℝ) (lib : Lib) (s : World) : ℝ × World :=
  (fl (fl (rand lib s).1 / fl randMax), (rand lib s).2)

/-- `uniform(range)` (`random_number_generator.hpp:51-54`). -/
noncomputable def uniformIn (fl : ℝ → ℝ) (lib : Lib) (range : ℝ) (s : World) : ℝ × World :=
  (fl (fl (fl ((uniform fl lib s).1 - 1 / 2) * 2) * range), (uniform fl lib s).2)

/-- One coordinate of the point drawn by `gaussian` (`random_number_generator.hpp:75-76`). -/
noncomputable def coordinate (fl : ℝ → ℝ) (lib : Lib) (s : World) : ℝ × World :=
  (fl (fl (2 * (uniform fl lib s).1) - 1), (uniform fl lib s).2)

/-- A point drawn by `gaussian`: `x1`, `x2`, `w`. -/
structure Point where
  x1 : ℝ
  x2 : ℝ
  w : ℝ

/-- One pass of the loop (`random_number_generator.hpp:75-77`). -/
noncomputable def point (fl : ℝ → ℝ) (lib : Lib) (s : World) : Point × World :=
  let a := coordinate fl lib s
  let b := coordinate fl lib a.2
  (⟨a.1, b.1, fl (fl (a.1 * a.1) + fl (b.1 * b.1))⟩, b.2)

/-- The loop (`random_number_generator.hpp:74-78`) with at most `fuel` passes; `none` if it needs more. -/
noncomputable def loop (fl : ℝ → ℝ) (lib : Lib) : Nat → World → Option (Point × World)
  | 0, _ => none
  | fuel + 1, s =>
    if 1 ≤ (point fl lib s).1.w then loop fl lib fuel (point fl lib s).2
    else some (point fl lib s)

/-- The second `w` (`random_number_generator.hpp:80`).  `none`: the logarithm of 0 is an infinity, and so
is the result; the products with the coordinates, which are 0 then, are NaN. -/
noncomputable def factor (fl : ℝ → ℝ) (w : ℝ) : Option ℝ :=
  if w = 0 then none else some (fl (√(fl (fl (-2 * fl (Real.log w)) / w))))

/-- A coordinate times the factor (`random_number_generator.hpp:81-82`). -/
noncomputable def scaled (fl : ℝ → ℝ) (x : ℝ) (f : Option ℝ) : Option ℝ := f.map fun f => fl (x * f)

/-- `mu + y1 * std` (`random_number_generator.hpp:86`). -/
noncomputable def placed (fl : ℝ → ℝ) (std mu : ℝ) (y : Option ℝ) : Option ℝ :=
  y.map fun y => fl (mu + fl (y * std))

/-- `gaussian(std,mu)` (`random_number_generator.hpp:61-87`). -/
noncomputable def gaussian (fl : ℝ → ℝ) (lib : Lib) (fuel : Nat) (std mu : ℝ) (s : World) :
    Option (Option ℝ × World) :=
  match s.last with
  | some y => some (placed fl std mu y, { s with last := none })
  | none =>
    match loop fl lib fuel s with
    | none => none
    | some (p, s) => some (placed fl std mu (scaled fl p.x1 (factor fl p.w)),
        { s with last := some (scaled fl p.x2 (factor fl p.w)) })

/-- What a program does with generators of one type; the object a call is made on does not matter.
(`random_number_generator.hpp:41-87`.) -/
inductive Op where
  | construct (seed : Nat)
  | uniform
  | uniformIn (range : ℝ)
  | gaussian (std mu : ℝ)

/-- The numbers a program gets from its generators. (`random_number_generator.hpp:41-87`.) -/
noncomputable def run (fl : ℝ → ℝ) (lib : Lib) (fuel : Nat) :
    List Op → World → Option (List (Option ℝ) × World)
  | [], s => some ([], s)
  | .construct seed :: ops, s => run fl lib fuel ops (construct seed s)
  | .uniform :: ops, s =>
    (run fl lib fuel ops (uniform fl lib s).2).map fun r => (some (uniform fl lib s).1 :: r.1, r.2)
  | .uniformIn range :: ops, s =>
    (run fl lib fuel ops (uniformIn fl lib range s).2).map fun r =>
      (some (uniformIn fl lib range s).1 :: r.1, r.2)
  | .gaussian std mu :: ops, s =>
    match gaussian fl lib fuel std mu s with
    | none => none
    | some (y, s) => (run fl lib fuel ops s).map fun r => (y :: r.1, r.2)

/-! ## `RandomNumberGenerator<int>` -/

/-- `uniform()` (`random_number_generator.hpp:56-59`): a division of integers. -/
def uniformInt (lib : Lib) (s : World) : Int × World :=
  (Int.tdiv (rand lib s).1 randMax, (rand lib s).2)

/-- `uniform(range)` (`random_number_generator.hpp:51-54`).  The product `(u - 0.5) * 2.0 * range` of
doubles is an integer, and its conversion to `int` exact. -/
def uniformInInt (lib : Lib) (range : Int) (s : World) : Int × World :=
  (((uniformInt lib s).1 * 2 - 1) * range, (uniformInt lib s).2)

/-- One pass of the loop of `gaussian` (`random_number_generator.hpp:75-77`): `w`. -/
def pointInt (lib : Lib) (s : World) : Int × World :=
  let a := uniformInt lib s
  let b := uniformInt lib a.2
  ((2 * a.1 - 1) * (2 * a.1 - 1) + (2 * b.1 - 1) * (2 * b.1 - 1), b.2)

/-- The loop of `gaussian` (`random_number_generator.hpp:74-78`) with at most `fuel` passes. -/
def loopInt (lib : Lib) : Nat → World → Option World
  | 0, _ => none
  | fuel + 1, s => if 1 ≤ (pointInt lib s).1 then loopInt lib fuel (pointInt lib s).2 else some (pointInt lib s).2

end Ecl.Rng
