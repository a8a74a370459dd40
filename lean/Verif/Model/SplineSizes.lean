import Verif.Core.Outcome

/-!
# The array accesses of the constructors of splines

`cubic_spline_blueprints.cpp`, `tension_spline_blueprints.cpp`, `smooth_linear_spline.cpp`: which elements of which arrays
are accessed, for arrays of any sizes, with the arithmetic of `unsigned int`, `int` and `size_t` (32, 32 and 64 bits).
What is computed is the subject of `CubicSpline.lean`, `TensionSpline.lean` and `SmoothLinearSpline.lean`.  The accesses
of one statement are listed in some order.
-/
set_option autoImplicit false

namespace Ecl.SplineSizes

/-- Builds: `ecl_assert_throw` throws in the first, `ecl_throw` in the first two; with `ECL_DISABLE_EXCEPTIONS` neither
does (`ecl_exceptions/include/ecl/exceptions/macros.hpp:45-75, 85-127`). -/
inductive Build where
  | debug | release | silent
  deriving DecidableEq, Repr

/-- The arrays: the data, the second (or first) derivatives, working arrays, and those of the spline made.
(`cubic_spline_blueprints.cpp:42-54`, `tension_spline_blueprints.cpp:41-62`, `smooth_linear_spline.cpp:46-48`.) -/
inductive Arr where
  | x | y | ydd | u | v | h | a | beta | gamma | segments | corners | domain | polys
  deriving DecidableEq, Repr

/-- What the constructors do to arrays: ask for memory (`resize`, constructor), access an element; and the checks:
`ecl_assert_throw`, `ecl_throw` and `throw`, with the condition that has to hold.
(`array_dynamic_no_mem_check.hpp:165-167`, `409-427`, `483-489`; `macros.hpp:45-127`.) -/
inductive Acc where
  | size (r : Arr) (n : Nat)
  | at (r : Arr) (i : Nat)
  | assert (c : Bool)
  | ecl (c : Bool)
  | hard (c : Bool) (e : Flag)
  deriving DecidableEq, Repr

/-- Access behind the end of an array (`array_dynamic_no_mem_check.hpp:409-427`). -/
def beyond {α : Type _} : Build → Outcome α
  | .debug => .throw .outOfRange
  | _ => .ub

/-- Sizes with one changed; `buffer_size` is an `unsigned int`. (`array_dynamic_no_mem_check.hpp:483-489`, `517`.) -/
def resized (s : Arr → Nat) (r : Arr) (n : Nat) : Arr → Nat := fun q => if q = r then n % 2 ^ 32 else s q

/-- The accesses one after the other.  `room` is the largest number of elements for which there is memory; a failed
`new` is written as the flag `memoryError` (`std::bad_alloc` or `std::bad_array_new_length`). (The functions cited
below.) -/
def exec (b : Build) (room : Nat) : (Arr → Nat) → List Acc → Outcome (Arr → Nat)
  | s, [] => .ok s
  | s, .size r n :: l => if n ≤ room then exec b room (resized s r n) l else .throw .memoryError
  | s, .at r i :: l => if i < s r then exec b room s l else beyond b
  | s, .assert c :: l => if c || b ≠ .debug then exec b room s l else .throw .outOfRange
  | s, .ecl c :: l => if c || b = .silent then exec b room s l else .throw .outOfRange
  | s, .hard c e :: l => if c then exec b room s l else .throw e

/-- Subtraction of `unsigned int`. (`cubic_spline_blueprints.cpp:60`, `tension_spline_blueprints.cpp:51`,
`smooth_linear_spline.cpp:41`.) -/
def usub (n k : Nat) : Nat := (n % 2 ^ 32 + 2 ^ 32 - k) % 2 ^ 32

/-- Copy of an array of `n` elements: nothing is asked for if it is empty.
(`array_dynamic_no_mem_check.hpp:175-184`, `244-251`.) -/
def copy (r : Arr) (n : Nat) : List Acc := if n = 0 then [] else [.size r n]

/-- `i = lo`, ..., `hi` (none if `hi < lo`). (`cubic_spline_blueprints.cpp:60`, `100` and so on.) -/
def upTo (lo hi : Nat) : List Nat := List.range' lo (hi + 1 - lo)

/-- The loop of the elimination (`cubic_spline_blueprints.cpp:60-67`, `100-107`).  With `n < 2` its end is never met; it
is cut after 2^32 passes here. -/
def elimination (n : Nat) : List (Arr × Nat) :=
  (upTo 1 (usub n 2)).flatMap fun i =>
    [(.x, i), (.x, i - 1), (.x, (i + 1) % 2 ^ 32), (.ydd, i - 1), (.ydd, i),
     (.u, i), (.y, (i + 1) % 2 ^ 32), (.y, i), (.y, i - 1), (.u, i - 1)]

/-- `for ( int k = n-2; k >= 0; --k )`: none if `n-2` is negative as an `int`. (`cubic_spline_blueprints.cpp:74-76`,
`114-116`.) -/
def backSubstitution (n : Nat) : List (Arr × Nat) :=
  if usub n 2 < 2 ^ 31 then
    ((List.range (usub n 2 + 1)).reverse).flatMap fun k => [(.ydd, k), (.ydd, k + 1), (.u, k)]
  else []

/-- Accesses of elements. (`array_dynamic_no_mem_check.hpp:409-427`.) -/
def ats (l : List (Arr × Nat)) : List Acc := l.map fun p => .at p.1 p.2

/-- `C2CubicSpline` with end slopes (`cubic_spline_blueprints.cpp:42-77`) of `nx` and `ny` points. -/
def clampedData (nx ny : Nat) : List Acc :=
  copy .x nx ++ copy .y ny ++ [.ecl (!(nx < 2 || ny < 2)), .assert (nx = ny), .size .ydd nx, .size .u nx] ++
  ats ([(.ydd, 0), (.u, 0), (.x, 1), (.x, 0), (.y, 1), (.y, 0)] ++ elimination nx ++
    [(.u, usub nx 1), (.x, usub nx 1), (.x, usub nx 2), (.y, usub nx 1), (.y, usub nx 2),
     (.ydd, usub nx 1), (.u, usub nx 2), (.ydd, usub nx 2)] ++ backSubstitution nx)

/-- `C2CubicSpline` without end slopes (`cubic_spline_blueprints.cpp:83-117`). -/
def naturalData (nx ny : Nat) : List Acc :=
  copy .x nx ++ copy .y ny ++ [.ecl (!(nx < 2 || ny < 2)), .assert (nx = ny), .size .ydd nx, .size .u nx] ++
  ats ([(.ydd, 0), (.u, 0)] ++ elimination nx ++
    [(.u, usub nx 1), (.ydd, usub nx 1), (.u, usub nx 2), (.ydd, usub nx 2)] ++ backSubstitution nx)

/-- `DerivativeHeuristicCubicSpline` (`cubic_spline_blueprints.cpp:141-159`); `x_data.size()-1` is a `size_t`. -/
def heuristicData (nx ny : Nat) : List Acc :=
  copy .x nx ++ copy .y ny ++ [.assert (nx = ny), .size .ydd nx] ++
  ats ([(.ydd, 0)] ++
    (List.range' 1 ((nx + 2 ^ 64 - 1) % 2 ^ 64 - 1)).flatMap (fun i =>
      [(.y, i), (.y, i - 1), (.x, i), (.x, i - 1), (.y, i + 1), (.x, i + 1), (.ydd, i)]) ++
    [(.ydd, (nx + 2 ^ 64 - 1) % 2 ^ 64)])

/-- `C2CubicSpline::apply`, `DerivativeHeuristicCubicSpline::apply`, `C2TensionSpline::apply`
(`cubic_spline_blueprints.cpp:125-134`, `167-176`, `tension_spline_blueprints.cpp:104-114`): the domain is assigned, and
there is a piece between each two points. -/
def apply (nx : Nat) : List Acc :=
  copy .domain nx ++ [.size .polys ((nx + 2 ^ 64 - 1) % 2 ^ 64)] ++
  ats ((List.range ((nx + 2 ^ 64 - 1) % 2 ^ 64 % 2 ^ 32)).flatMap fun i =>
    [(.polys, i), (.x, i), (.y, i), (.ydd, i), (.x, i + 1), (.y, i + 1), (.ydd, i + 1)])

/-- `C2TensionSpline` (`tension_spline_blueprints.cpp:41-96`). -/
def tensionData (nx ny : Nat) : List Acc :=
  let n := usub nx 1
  copy .x nx ++ copy .y ny ++ [.assert (nx = ny), .size .ydd ((n + 1) % 2 ^ 32), .at .ydd 0] ++
  [.size .h n, .size .a n, .size .beta n, .size .gamma n, .size .u n, .size .v n] ++
  ats ([(.h, 0), (.x, 1), (.x, 0)] ++
    (List.range n).flatMap (fun i =>
      [(.h, i), (.x, i + 1), (.x, i), (.a, i), (.beta, i), (.gamma, i), (.y, i + 1), (.y, i)]) ++
    [(.u, 1), (.beta, 1), (.beta, 0), (.v, 1), (.gamma, 1), (.gamma, 0)] ++
    (List.range' 2 (n - 2)).flatMap (fun i =>
      [(.u, i), (.beta, i), (.beta, i - 1), (.a, i - 1), (.u, i - 1), (.v, i), (.gamma, i), (.gamma, i - 1),
       (.v, i - 1)]) ++
    [(.ydd, n)] ++
    ((List.range' 1 (usub n 1)).reverse).flatMap (fun i => [(.ydd, i), (.v, i), (.a, i), (.ydd, i + 1), (.u, i)]) ++
    [(.ydd, 0)])

/-- One corner of a `SmoothLinearSpline` (`smooth_linear_spline.cpp:62-109`); `fits` tells whether the bound on the
acceleration can be met.  The elements read only if the slopes differ are listed in any case. -/
def corner (n : Nat) (fits : Nat → Bool) (i : Nat) : List Acc :=
  ats [(.segments, i - 1), (.segments, i), (.x, i), (.x, i - 1), (.x, i + 1), (.corners, i - 1)] ++
  [.hard (fits i) .constructorError] ++
  ats [(.domain, (1 + 2 * (i - 1)) % 2 ^ 32), (.domain, (2 + 2 * (i - 1)) % 2 ^ 32)]

/-- The constructor of `SmoothLinearSpline` (`smooth_linear_spline.cpp:30-110`). -/
def smooth (nx ny : Nat) (fits : Nat → Bool) : List Acc :=
  let n := usub nx 1
  [.size .x nx, .size .y ny, .hard (nx = ny) .outOfRange,
   .size .segments n, .size .corners (usub n 1), .size .domain (2 * n % 2 ^ 32)] ++
  ats ((List.range n).flatMap (fun i => [(.segments, i), (.x, i), (.y, i), (.x, i + 1), (.y, i + 1)]) ++
    [(.domain, 0), (.x, 0), (.domain, usub (2 * n) 1), (.x, n)]) ++
  (List.range' 1 (n - 1)).flatMap (corner n fits)

/-- The first step of an evaluation: `discretised_domain[1]` is compared with the argument.
(`cubic_spline.cpp:31-34`, `tension_spline.cpp:31-34`, `smooth_linear_spline.cpp:114-117`.) -/
def evaluate : List Acc := [.at .domain 1]

/-- Nothing has been constructed yet. (Behind `cubic_spline_blueprints.cpp:44-45`.) -/
def none : Arr → Nat := fun _ => 0

/-- How a construction ends. (The functions cited above.) -/
def verdict (b : Build) (room : Nat) (l : List Acc) : Outcome Unit :=
  match exec b room none l with
  | .ok _ => .ok ()
  | .throw e => .throw e
  | .ub => .ub

end Ecl.SplineSizes
