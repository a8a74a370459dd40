import Verif.Core.CReal
import Verif.Model.Angle

/-!
# Model of `ecl::CartesianPoint` and `ecl::HomogeneousPoint`

`ecl_geometry/include/ecl/geometry/cartesian_point.hpp`, `homogeneous_point.hpp`.  The instantiations
for `double` are in exact arithmetic; those for `int` have 32 bit coordinates with undefined overflow,
and the intermediate `double`s are exact.
-/
set_option autoImplicit false

namespace Ecl.Cart

/-! ## Points of any dimension -/

/-- `operator[]` (`cartesian_point.hpp:86-101`, `344-352`); without the check Eigen reads outside its
array. -/
def at' {α : Type} (m : Mode) (elements : List α) (i : Nat) : Outcome α :=
  match elements[i]? with
  | some v => .ok v
  | none => match m with
    | .debug => .throw .outOfRange
    | .release => .ub

/-! ## Points of the plane -/

/-- The members of a two dimensional point (`cartesian_point.hpp:496`). -/
structure Pt (α : Type) where
  x : α
  y : α
  deriving DecidableEq, Repr

section
variable {α : Type} [DecidableEq α]

/-- `operator==` (`cartesian_point.hpp:411-415`). -/
def eq (a b : Pt α) : Bool := if b.x ≠ a.x ∨ b.y ≠ a.y then false else true

/-- `operator!=` (`cartesian_point.hpp:417-421`). -/
def ne (a b : Pt α) : Bool := if b.x ≠ a.x ∨ b.y ≠ a.y then true else false

end

/-! ### `CartesianPoint<double,2>` -/

/-- `rotate` (`cartesian_point.hpp:423-432`). -/
noncomputable def rotate (angle : ℝ) (p : Pt ℝ) : Pt ℝ :=
  ⟨p.x * Real.cos angle - p.y * Real.sin angle, p.x * Real.sin angle + p.y * Real.cos angle⟩

/-- `get_angle` (`cartesian_point.hpp:434-437`). -/
noncomputable def angle (p : Pt ℝ) : ℝ := Angle.atan2 p.y p.x

/-- `operator+=` (`cartesian_point.hpp:439-442`). -/
def addAssign (p q : Pt ℝ) : Pt ℝ := ⟨p.x + q.x, p.y + q.y⟩

/-- `distance` (`cartesian_point.hpp:444-448`). -/
noncomputable def distance (p q : Pt ℝ) : ℝ :=
  √((p.x - q.x) * (p.x - q.x) + (p.y - q.y) * (p.y - q.y))

/-- `Norm` (`cartesian_point.hpp:481-485`). -/
noncomputable def norm (p : Pt ℝ) : ℝ := √(p.x * p.x + p.y * p.y)

/-- `Normalize` (`cartesian_point.hpp:450-464`): the point after the call, and the returned length. -/
noncomputable def normalize (p : Pt ℝ) : Pt ℝ × ℝ :=
  if norm p = 0 then (⟨1, 0⟩, norm p)
  else (⟨p.x * (1 / norm p), p.y * (1 / norm p)⟩, norm p)

/-- `operator*` (`cartesian_point.hpp:466-469`). -/
def smul (p : Pt ℝ) (d : ℝ) : Pt ℝ := ⟨p.x * d, p.y * d⟩

/-- `operator+` (`cartesian_point.hpp:471-474`). -/
def add (p q : Pt ℝ) : Pt ℝ := ⟨p.x + q.x, p.y + q.y⟩

/-- `operator-` (`cartesian_point.hpp:476-479`). -/
def sub (p q : Pt ℝ) : Pt ℝ := ⟨p.x - q.x, p.y - q.y⟩

/-! ### `CartesianPoint<int,2>` -/

/-- `rotate` (`cartesian_point.hpp:423-432`). -/
noncomputable def rotateInt (angle : ℝ) (p : Pt Int) : Outcome (Pt Int) := do
  let x ← castInt (p.x * Real.cos angle - p.y * Real.sin angle)
  let y ← castInt (p.x * Real.sin angle + p.y * Real.cos angle)
  .ok ⟨x, y⟩

/-- The sum of squares, an `int` (`cartesian_point.hpp:447`, `ecl_math/include/ecl/math/norms.hpp:50`). -/
def sumSquares (a b : Int) : Outcome Int := do
  let aa ← intValue (a * a)
  let bb ← intValue (b * b)
  intValue (aa + bb)

/-- `distance` (`cartesian_point.hpp:444-448`). -/
noncomputable def distanceInt (p q : Pt Int) : Outcome Int := do
  let dx ← intValue (p.x - q.x)
  let dy ← intValue (p.y - q.y)
  let s ← sumSquares dx dy
  castInt √s

/-- `Normalize` (`cartesian_point.hpp:450-464`). -/
noncomputable def normalizeInt (p : Pt Int) : Outcome (Pt Int × Int) := do
  let s ← sumSquares p.x p.y
  let mag ← castInt √s
  if mag = 0 then .ok (⟨1, 0⟩, mag)
  else do
    let x ← castInt (p.x * (1 / mag))
    let y ← castInt (p.y * (1 / mag))
    .ok (⟨x, y⟩, mag)

/-! ## Homogeneous points -/

/-- The members of a homogeneous point (`homogeneous_point.hpp:184`). -/
structure Hom where
  x : ℝ
  y : ℝ
  z : ℝ
  w : ℝ

/-- Constructor from a value (`homogeneous_point.hpp:62-65`). -/
def Hom.ofValue (v : ℝ) : Hom := ⟨v, v, v, 1⟩

/-- Constructors from three numbers and from a vector with three entries (`homogeneous_point.hpp:74-77`,
`95-97`). -/
def Hom.ofCoords (x y z : ℝ) : Hom := ⟨x, y, z, 1⟩

/-- Constructor from a vector with four entries (`homogeneous_point.hpp:85-87`). -/
noncomputable def Hom.ofVector (m : Mode) (x y z w : ℝ) : Outcome Hom := do
  assertThrow m (decide (w = 1)) .invalidInputError
  .ok ⟨x, y, z, w⟩

/-- The calls that change a homogeneous point (`homogeneous_point.hpp:117-128`, `176-178`); `fill` is the
comma initialiser with its four values and assignments through `positionVector()`. -/
inductive HomOp where
  | setX (v : ℝ)
  | setY (v : ℝ)
  | setZ (v : ℝ)
  | fill (x y z w : ℝ)

/-- Effect of a call. (`homogeneous_point.hpp:117-128`, `176-178`.) -/
def Hom.step (p : Hom) : HomOp → Hom
  | .setX v => { p with x := v }
  | .setY v => { p with y := v }
  | .setZ v => { p with z := v }
  | .fill x y z w => ⟨x, y, z, w⟩

end Ecl.Cart
