import Verif.Core.Outcome
import Verif.Model.LinearSegment

/-!
# Trajectories (`ecl_geometry/src/lib/odometry_helper.cpp`)

A trajectory (`Eigen::Matrix3Xf` for poses, a six-row matrix for odometry) is the list of its columns.
Coordinates are exact reals: the narrowing to `float` is not modelled.  Eigen is not part of the
repository; its behaviour is taken from its documentation: a violated precondition stops the program
with a failed assertion unless `NDEBUG` is defined (`Mode.release`), where it is undefined behaviour.
Reading or writing inside the storage is defined in both.
-/
set_option autoImplicit false

namespace Ecl.Odometry
open Ecl

/-- Result of a call that uses Eigen. (The calls at `odometry_helper.cpp:151-199`.) -/
inductive Eig (α : Type) where
  | ok (a : α)
  | abort
  | ub
  deriving DecidableEq, Repr

/-- A violated precondition of Eigen. (Eigen's `eigen_assert`, behind
`odometry_helper.cpp:151-199`.) -/
def violated {α : Type} (mode : Mode) : Eig α :=
  match mode with
  | .debug => .abort
  | .release => .ub

/-- A pose: x, y and heading (`odometry_typedefs.hpp:54`). -/
@[ext] structure Pose where
  x : ℝ
  y : ℝ
  yaw : ℝ

/-- An odometry entry: a pose and a twist (`odometry_typedefs.hpp:90`). -/
@[ext] structure Odom where
  pose : Pose
  vx : ℝ
  vy : ℝ
  wz : ℝ

/-- Minimum over an optional start value, which stands for infinity when absent (`37`, `47-50`). -/
noncomputable def keepLess (best : Option ℝ) (d : ℝ) : Option ℝ :=
  match best with
  | none => some d
  | some b => if b > d then some d else some b

/-- Loop of `distance` (`40-53`) over the columns from the second on. -/
noncomputable def distanceLoop (x y : ℝ) : Pose → List Pose → Option ℝ → Option ℝ
  | _, [], best => best
  | start, stop :: rest, best =>
    distanceLoop x y stop rest
      (keepLess best
        (Segment.squaredDistanceFromPoint (Segment.make start.x start.y stop.x stop.y) x y))

/-- `distance(Position2D, Trajectory2D)` (`28-56`).  The first block of an empty trajectory violates a
precondition.  The loop leaves a number whenever there is a second column, so the last branch, an
infinite result, is not reached. -/
noncomputable def distance (mode : Mode) (x y : ℝ) (trajectory : List Pose) : Eig (Option ℝ) :=
  match trajectory with
  | [] => violated mode
  | [p] => .ok (some (Real.sqrt ((x - p.x) * (x - p.x) + (y - p.y) * (y - p.y))))
  | p :: rest => .ok ((distanceLoop x y p rest none).map Real.sqrt)

/-- `distance(Pose2D, Trajectory2D)` (`23-26`). -/
noncomputable def distancePose (mode : Mode) (p : Pose) (trajectory : List Pose) : Eig (Option ℝ) :=
  distance mode p.x p.y trajectory

variable {α : Type}

/-- `target << addition;` (`111`, `122`): the comma initialiser copies the addition over the first
columns of the target and, at the end of the statement, requires that the target has been filled
completely. -/
def insertInto (mode : Mode) (target addition : List α) : Eig (List α) :=
  if target.length < addition.length then violated mode
  else if addition.length < target.length then
    match mode with
    | .debug => .abort
    | .release => .ok (addition ++ target.drop addition.length)
  else .ok addition

/-- `addAtEnd` (`103-112`, `114-123`): the new content of the target. -/
def addAtEnd (mode : Mode) (target addition : List α) : Eig (List α) :=
  if target.length = 0 then .ok addition else insertInto mode target addition

/-- `setAt` (`161-169`). -/
def setAt (mode : Mode) (t : List α) (i : ℕ) (v : α) : Eig (List α) :=
  if i < t.length then .ok (t.set i v) else violated mode

/-- `getAt` (`171-179`). -/
def getAt (mode : Mode) (t : List α) (i : ℕ) : Eig α :=
  match t[i]? with
  | some v => .ok v
  | none => violated mode

/-- `getFront` (`181-184`, `191-194`) and `getBack` (`186-189`, `196-199`). -/
def getFront (mode : Mode) (t : List α) : Eig α :=
  match t.head? with
  | some v => .ok v
  | none => violated mode
/-- `getBack` (`odometry_helper.cpp:186-189`, `196-199`). -/
def getBack (mode : Mode) (t : List α) : Eig α :=
  match t.getLast? with
  | some v => .ok v
  | none => violated mode

/-- `resize` (`151-159`): `conservativeResize` keeps the common columns; new ones are uninitialised,
`fresh` here. -/
def resize (t : List α) (n : ℕ) (fresh : List α) : List α :=
  t.take n ++ fresh.take (n - t.length)

/-- Loop of `vectorToTrajectory` (`130-133`, `143-146`, `400-403`, `413-416`) from index `i` on. -/
def fill (mode : Mode) : List α → ℕ → List α → Eig (List α)
  | [], _, t => .ok t
  | v :: vs, i, t =>
    match setAt mode t i v with
    | .ok t' => fill mode vs (i + 1) t'
    | .abort => .abort
    | .ub => .ub

/-- `vectorToTrajectory` (`125-149`) and `vectorToTrajectoryPtr` (`395-419`): `storage` is the
uninitialised content after the resize, as many columns as the vector has entries (fewer than 2^31). -/
def vectorToTrajectory (mode : Mode) (vec storage : List α) : Eig (List α) := fill mode vec 0 storage

/-- `getPoses` (`201-204`). -/
def getPoses (t : List Odom) : List Pose := t.map Odom.pose

end Ecl.Odometry
