import Verif.Model.Angle
import Mathlib.Data.Matrix.Mul
import Mathlib.LinearAlgebra.Matrix.Notation

/-!
# Poses (`ecl_geometry/include/ecl/geometry/pose2d.hpp`, `legacy_pose2d.hpp`, `legacy_pose3d.hpp`)

Exact real arithmetic; Eigen's small matrix products are written out (2x2) or Mathlib's (3x3).
-/
set_option autoImplicit false

namespace Ecl.Pose
open Real Ecl.Angle

/-- `Matrix<Float, 3, 1>`: x, y, heading. -/
@[ext] structure XYH where
  x : ℝ
  y : ℝ
  h : ℝ

/-- `concatenate_poses` (`pose2d.hpp:47-63`). -/
noncomputable def concatenate (a b : XYH) : XYH :=
  let c := cos a.h
  let s := sin a.h
  { x := a.x + c * b.x - s * b.y
    y := a.y + s * b.x + c * b.y
    h := wrapAngle (a.h + b.h) }

/-- `extend_pose` (`pose2d.hpp:76-89`): the comma initialiser stores the three entries one after the
other, and each expression is evaluated after the previous store (the order of C++17; earlier standards
leave it open).  `same` says that both arguments are the same object, so that the stores are seen by the
later reads. -/
noncomputable def extend (same : Bool) (pose ext : XYH) : XYH :=
  let c := cos pose.h
  let s := sin pose.h
  let p1 := { pose with x := pose.x + c * ext.x - s * ext.y }
  let e1 := if same then p1 else ext
  let p2 := { p1 with y := p1.y + s * e1.x + c * e1.y }
  let e2 := if same then p2 else ext
  { p2 with h := wrapAngle (p2.h + e2.h) }

/-! ## `LegacyPose2D` with a rotation matrix -/

/-- `LegacyPose2D<Float, RotationMatrixStorage>` (`legacy_pose2d.hpp:453-454`). -/
@[ext] structure PoseM where
  rot : Mat2
  x : ℝ
  y : ℝ

/-- Product of 2x2 matrices, transpose (`119`, `121`). -/
def mulMat (a b : Mat2) : Mat2 :=
  ⟨a.m00 * b.m00 + a.m01 * b.m10, a.m00 * b.m01 + a.m01 * b.m11,
   a.m10 * b.m00 + a.m11 * b.m10, a.m10 * b.m01 + a.m11 * b.m11⟩
/-- Eigen's `transpose()`, used at `legacy_pose2d.hpp:401-406`. -/
def transpose (a : Mat2) : Mat2 := ⟨a.m00, a.m10, a.m01, a.m11⟩

/-- `LegacyPose2D(x, y, angle)` (`220-223`) and the default constructor (`212`). -/
noncomputable def PoseM.make (x y angle : ℝ) : PoseM := { rot := rotationMatrix angle, x := x, y := y }
/-- The default constructor (`212`). -/
def PoseM.identity : PoseM := { rot := ⟨1, 0, 0, 1⟩, x := 0, y := 0 }

/-- `inverse()` (`401-406`). -/
def PoseM.inverse (p : PoseM) : PoseM :=
  let r := transpose p.rot
  { rot := r, x := -1 * (r.m00 * p.x + r.m01 * p.y), y := -1 * (r.m10 * p.x + r.m11 * p.y) }

/-- `operator*` (`413-416`); `operator*=` (`422-426`) assigns the product. -/
def PoseM.mul (p q : PoseM) : PoseM :=
  { rot := mulMat p.rot q.rot
    x := p.x + (p.rot.m00 * q.x + p.rot.m01 * q.y)
    y := p.y + (p.rot.m10 * q.x + p.rot.m11 * q.y) }

/-- `relative` (`441-444`). -/
def PoseM.relative (p q : PoseM) : PoseM := q.inverse.mul p

/-- `heading()` (`388`, `118`). -/
noncomputable def PoseM.heading (p : PoseM) : ℝ := ofRotation p.rot

/-! ## `LegacyPose2D` with an angle -/

/-- `LegacyPose2D<Float, RotationAngleStorage>`. -/
@[ext] structure PoseA where
  rot : ℝ
  x : ℝ
  y : ℝ

/-- Constructors (`220-223`, `212`). -/
noncomputable def PoseA.make (x y angle : ℝ) : PoseA := { rot := ofReal angle, x := x, y := y }
/-- The default constructor (`212`). -/
noncomputable def PoseA.identity : PoseA := { rot := ofReal 0, x := 0, y := 0 }

/-- `inverse()` (`401-406` with `141`). -/
noncomputable def PoseA.inverse (p : PoseA) : PoseA :=
  let a := ofReal (scale p.rot (-1))
  let r := rotationMatrix a
  { rot := a, x := -1 * (r.m00 * p.x + r.m01 * p.y), y := -1 * (r.m10 * p.x + r.m11 * p.y) }

/-- `operator*` (`413-416` with `139`, `117`).  (`operator*=` does not compile for this storage: it
returns a reference to the other storage type.) -/
noncomputable def PoseA.mul (p q : PoseA) : PoseA :=
  let r := rotationMatrix p.rot
  { rot := add p.rot q.rot
    x := p.x + (r.m00 * q.x + r.m01 * q.y)
    y := p.y + (r.m10 * q.x + r.m11 * q.y) }

/-- `relative` (`441-444`). -/
noncomputable def PoseA.relative (p q : PoseA) : PoseA := q.inverse.mul p

/-- Conversion of the storage (`263-267`, `117`, `137`). -/
noncomputable def PoseA.toMatrix (p : PoseA) : PoseM := { rot := rotationMatrix p.rot, x := p.x, y := p.y }
/-- Conversion of the storage (`263-267`, `117`, `137`). -/
noncomputable def PoseM.toAngle (p : PoseM) : PoseA := { rot := ofRotation p.rot, x := p.x, y := p.y }

/-! ## `LegacyPose3D` -/

/-- `LegacyPose3D` (`legacy_pose3d.hpp:294-295`). -/
structure Pose3 where
  rot : Matrix (Fin 3) (Fin 3) ℝ
  trans : Fin 3 → ℝ

/-- Default constructor (`legacy_pose3d.hpp:80`). -/
def Pose3.identity : Pose3 := { rot := 1, trans := 0 }

/-- `inverse()` (`242-247`). -/
noncomputable def Pose3.inverse (p : Pose3) : Pose3 :=
  let r := p.rot.transpose
  { rot := r, trans := (-1 : ℝ) • r.mulVec p.trans }

/-- `operator*` (`253-256`); `operator*=` (`266-271`) assigns the product. -/
def Pose3.mul (p q : Pose3) : Pose3 :=
  { rot := p.rot * q.rot, trans := p.trans + p.rot.mulVec q.trans }

/-- `relative` (`280-283`). -/
noncomputable def Pose3.relative (p q : Pose3) : Pose3 := q.inverse.mul p

/-- Construction from a planar pose (`106-113`). -/
def Pose3.ofPlanar (p : PoseM) : Pose3 :=
  { rot := !![p.rot.m00, p.rot.m01, 0; p.rot.m10, p.rot.m11, 0; 0, 0, 1]
    trans := ![p.x, p.y, 0] }

/-- Assignment of a planar pose (`163-171`): every entry is written. -/
def Pose3.assignPlanar (old : Pose3) (p : PoseM) : Pose3 :=
  { rot := fun i j =>
      if i.val < 2 ∧ j.val < 2 then !![p.rot.m00, p.rot.m01, 0; p.rot.m10, p.rot.m11, 0; 0, 0, 0] i j
      else if i.val < 2 ∧ j.val = 2 then 0
      else if i.val = 2 then ![0, 0, 1] j
      else old.rot i j
    trans := fun i =>
      if i.val < 2 then ![p.x, p.y, 0] i
      else if i.val = 2 then 0
      else old.trans i }

/-- Construction from a rotation about an axis and a translation (`122-130`): both arguments are
ignored. -/
def Pose3.ofAngleAxis (_rotation : Matrix (Fin 3) (Fin 3) ℝ) (_translation : Fin 3 → ℝ) : Pose3 :=
  { rot := 1, trans := 0 }

/-- Construction from a matrix and a translation (`93-98`). -/
def Pose3.ofMatrix (rotation : Matrix (Fin 3) (Fin 3) ℝ) (translation : Fin 3 → ℝ) : Pose3 :=
  { rot := rotation, trans := translation }

/-- Construction from a quaternion, given here by its rotation matrix, and a translation
(`138-142`). -/
def Pose3.ofQuaternion (rotation : Matrix (Fin 3) (Fin 3) ℝ) (translation : Fin 3 → ℝ) : Pose3 :=
  { rot := rotation, trans := translation }

end Ecl.Pose
