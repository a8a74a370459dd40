import Verif.Model.RootsExtended
import Verif.Model.Angle
import Verif.Model.Odometry

/-!
# NaN and the infinities in scalar functions, angles, statistics and distances

The functions of `Model/MathSimple.lean`, `Model/Angle.lean`, `Model/CumulativeStatistics.lean` and the
distances of `Model/Odometry.lean` once more, for all values of `double`: numbers, infinities and NaN, with the comparisons of the code in the
order and the direction in which they are written.  Arithmetic on numbers is exact (no rounding and no
overflow), and the two zeros are one number.
-/
set_option autoImplicit false

namespace Ecl.Special
open Ecl Ecl.Poly Ecl.Poly.Ext

/-- `<` (IEEE 754; used at `simple.hpp:44`, `angle.cpp:33`). -/
noncomputable def lt (a b : Ext) : Bool := gt b a

/-- `<=` (IEEE 754; used at `fuzzy.hpp:64`, `angle.cpp:30`). -/
noncomputable def le (a b : Ext) : Bool := ge b a

/-- `std::abs`, `fabs` (C library; used at `fuzzy.hpp:64`, `simple.hpp:99`). -/
noncomputable def abs : Ext → Ext
  | num x => num |x|
  | inf _ => inf false
  | nan => nan

/-- `std::min`: the first argument unless the second is less (C++ library; used at `fuzzy.hpp:64`). -/
noncomputable def min (a b : Ext) : Ext := if lt b a then b else a

/-- `sign` (`ecl_math/include/ecl/math/simple.hpp:37-49`). -/
noncomputable def sign (x : Ext) : Int :=
  if gt x (num 0) then 1 else if lt x (num 0) then -1 else 0

/-- `psign` (`simple.hpp:60-68`). -/
noncomputable def psign (x : Ext) : Int := if ge x (num 0) then 1 else -1

/-- `nsign` (`simple.hpp:79-87`). -/
noncomputable def nsign (x : Ext) : Int := if gt x (num 0) then 1 else -1

/-- `pow(x, 1.0/3.0)` of a value that is not negative (C library; used at `simple.hpp:99`). -/
noncomputable def powThird : Ext → Ext
  | num x => num (x ^ ((1 : ℝ) / 3))
  | e => e

/-- `cube_root` (`simple.hpp:96-100`). -/
noncomputable def cubeRoot (x : Ext) : Ext := mul (num (psign x)) (powThird (abs x))

/-- `euclidean_norm` of two values (`ecl_math/include/ecl/math/norms.hpp:48-51`, `81-84`). -/
noncomputable def norm2 (x y : Ext) : Ext := sqrt (add (mul x x) (mul y y))

/-- `euclidean_norm` of three values (`norms.hpp:61-64`, `94-97`). -/
noncomputable def norm3 (x y z : Ext) : Ext := sqrt (add (add (mul x x) (mul y y)) (mul z z))

/-- `isApprox` of two floating point values (`ecl_math/include/ecl/math/fuzzy.hpp:61-65`). -/
noncomputable def isApprox (x y prec : Ext) : Bool :=
  le (abs (sub x y)) (mul (min (abs x) (abs y)) prec)

/-- `isApproxOrLessThan` of two floating point values (`fuzzy.hpp:67-70`); the precision is passed on. -/
noncomputable def isApproxOrLessThan (x y prec : Ext) : Bool := le x y || isApprox x y prec

open Classical in
/-- `isApprox` of an integer and a floating point value (`fuzzy.hpp:83-98`); `dummy` is the default
precision of the type of `y`. -/
noncomputable def isApproxIntFloat (dummy : ℝ) (x : Int) (y prec : Ext) : Bool :=
  let p := if eq prec (num 0) then num dummy else prec
  le (abs (sub (num x) y)) (mul (min (abs (num x)) (abs y)) p)

/-- `isApproxOrLessThan` of an integer and a floating point value (`fuzzy.hpp:99-102`). -/
noncomputable def isApproxOrLessThanInt (x : Int) (y : Ext) : Bool := le (num x) y

/-- C `fmod` for a second argument that is a number other than zero (C11 F.10.7.1: NaN for an infinite
first argument; used at `angle.cpp:34-71`). -/
noncomputable def fmod (x : Ext) (y : ℝ) : Ext :=
  match x with
  | num a => num (Angle.fmod a y)
  | _ => nan

/-- `wrap_angle` (`ecl_geometry/src/lib/angle.cpp:29-74`, the four versions). -/
noncomputable def wrapAngle (a : Ext) : Ext :=
  if le a (num Real.pi) && ge a (num (-Real.pi)) then a
  else if lt a (num 0) then add (fmod (sub a (num Real.pi)) (2 * Real.pi)) (num Real.pi)
  else sub (fmod (add a (num Real.pi)) (2 * Real.pi)) (num Real.pi)

/-- A call that changes an `Angle` (`ecl_geometry/include/ecl/geometry/angle.hpp:152-258`).  The right
side of `+` and `-` may itself be an angle, which is its value here. -/
inductive AngleOp where
  /-- `angle = x`, `angle = Angle(x)`, `angle = Angle::Radians(x)` (`angle.hpp:152`, `341-346`, `416-419`). -/
  | assign (x : Ext)
  /-- `angle = Angle::Degrees(x)` (`411-414`). -/
  | degrees (x : Ext)
  /-- `angle += x` (`362-372`). -/
  | addAssign (x : Ext)
  /-- `angle = angle + x` (`352-360`). -/
  | add (x : Ext)
  /-- `angle -= x` (`384-394`). -/
  | subAssign (x : Ext)
  /-- `angle = angle - x` (`374-382`). -/
  | sub (x : Ext)
  /-- `angle *= x` (`401-405`). -/
  | mulAssign (x : Ext)
  /-- `angle = angle * x` (`396-399`). -/
  | mul (x : Ext)

/-- One such call: the operators that return an `Angle` wrap twice (`angle.hpp:341-419`). -/
noncomputable def applyAngle (v : Ext) : AngleOp → Ext
  | .assign x => wrapAngle x
  | .degrees x => wrapAngle (Ext.mul x (num (Real.pi / 180)))
  | .addAssign x => wrapAngle (Ext.add v x)
  | .add x => wrapAngle (wrapAngle (Ext.add v x))
  | .subAssign x => wrapAngle (Ext.sub v x)
  | .sub x => wrapAngle (wrapAngle (Ext.sub v x))
  | .mulAssign x => wrapAngle (Ext.mul v x)
  | .mul x => wrapAngle (wrapAngle (Ext.mul x v))

/-- An angle after a history of such calls; the default constructor gives zero (`angle.hpp:152`). -/
noncomputable def runAngle (ops : List AngleOp) : Ext := ops.foldl applyAngle (wrapAngle (num 0))

/-- The members of `CumulativeStatistics`
(`ecl_statistics/include/ecl/statistics/cumulative_statistics.hpp:92-94`); the counter is a natural number. -/
structure Stats where
  n : ℕ
  oldMean : Ext
  oldVariance : Ext
  newMean : Ext
  newVariance : Ext

/-- The constructor (`43`) and `clear()` (`45`): only the counter is set. -/
def clear (s : Stats) : Stats := { s with n := 0 }

/-- `push_back` (`cumulative_statistics.hpp:55-71`). -/
noncomputable def pushBack (s : Stats) (x : Ext) : Stats :=
  let s := { s with n := s.n + 1 }
  if s.n = 1 then { s with oldMean := x, newMean := x, oldVariance := num 0 }
  else
    let newMean := add s.oldMean (div false (sub x s.oldMean) (num s.n))
    let newVariance := add s.oldVariance (mul (sub x s.oldMean) (sub x newMean))
    { s with
      newMean := newMean
      newVariance := newVariance
      oldMean := newMean
      oldVariance := newVariance }

/-- `size()` (`cumulative_statistics.hpp:77`). -/
def size (s : Stats) : Ext := num s.n
/-- `mean()` (`cumulative_statistics.hpp:83`). -/
noncomputable def mean (s : Stats) : Ext := if s.n > 0 then s.newMean else num 0
/-- `variance()` (`cumulative_statistics.hpp:89`). -/
noncomputable def variance (s : Stats) : Ext :=
  if s.n > 1 then div false s.newVariance (num (s.n - 1)) else num 0

/-- A call that changes the statistics (`cumulative_statistics.hpp:45`, `55`). -/
inductive StatsOp where
  | push (x : Ext)
  | clear

/-- One such call (`cumulative_statistics.hpp:45`, `55-71`). -/
noncomputable def applyStats (s : Stats) : StatsOp → Stats
  | .push x => pushBack s x
  | .clear => clear s

/-- The object after a history of calls on a fresh one (`cumulative_statistics.hpp:43-71`). -/
noncomputable def runStats (garbage : Stats) (ops : List StatsOp) : Stats :=
  ops.foldl applyStats (clear garbage)

/-- A position, or the position of a pose: two coordinates
(`ecl_geometry/include/ecl/geometry/odometry_typedefs.hpp:38`, `54`). -/
abbrev Position := Ext × Ext

/-- `squaredDistanceFromPoint` of the segment from `a` to `b`
(`ecl_geometry/src/lib/linear_segment.cpp:36-58`; the coefficients of the line, set by the constructor, are
not read there). -/
noncomputable def squaredDistanceFromPoint (a b p : Position) : Ext :=
  let dot := add (mul (sub p.1 a.1) (sub b.1 a.1)) (mul (sub p.2 a.2) (sub b.2 a.2))
  let squaredLength := add (mul (sub b.1 a.1) (sub b.1 a.1)) (mul (sub b.2 a.2) (sub b.2 a.2))
  let t := if !eq squaredLength (num 0) then div false dot squaredLength else num (-1)
  let q :=
    if lt t (num 0) then a
    else if gt t (num 1) then b
    else (add a.1 (mul t (sub b.1 a.1)), add a.2 (mul t (sub b.2 a.2)))
  add (mul (sub p.1 q.1) (sub p.1 q.1)) (mul (sub p.2 q.2) (sub p.2 q.2))

/-- Loop of `distance` (`ecl_geometry/src/lib/odometry_helper.cpp:40-53`) over the columns from the second
on. -/
noncomputable def distanceLoop (p : Position) : Position → List Position → Ext → Ext
  | _, [], best => best
  | start, stop :: rest, best =>
    let d := squaredDistanceFromPoint start stop p
    distanceLoop p stop rest (if gt best d then d else best)

/-- `distance(Position2D, Trajectory2D)` (`odometry_helper.cpp:28-56`); the headings are not read. -/
noncomputable def distance (mode : Mode) (p : Position) (trajectory : List Position) : Odometry.Eig Ext :=
  match trajectory with
  | [] => Odometry.violated mode
  | [q] => .ok (norm2 (sub p.1 q.1) (sub p.2 q.2))
  | q :: rest => .ok (sqrt (distanceLoop p q rest (inf false)))

end Ecl.Special
