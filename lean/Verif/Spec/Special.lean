import Verif.Model.Special
import Verif.Spec.Statistics
import Verif.Spec.Angle
import Verif.Spec.Plane

/-! # What is expected of functions that meet NaN and infinities -/
set_option autoImplicit false

namespace Ecl.Spec
open Ecl Ecl.Poly

/-- The value is a number, neither NaN nor an infinity. -/
def Numeric : Ext → Prop
  | .num _ => True
  | _ => False

/-- The same value, as usual for comparisons: NaN is not the same as anything. -/
def SameValue : Ext → Ext → Prop
  | .num x, .num y => x = y
  | .inf s, .inf t => s = t
  | _, _ => False

/-- The numbers among the values. -/
def numbers (l : List Ext) : List ℝ := l.filterMap fun e => match e with | .num x => some x | _ => none

/-- The sign of a value, if it has one. -/
inductive HasSign : Ext → Int → Prop
  | positive (x : ℝ) (h : 0 < x) : HasSign (.num x) 1
  | negative (x : ℝ) (h : x < 0) : HasSign (.num x) (-1)
  | zero : HasSign (.num 0) 0
  | plus : HasSign (.inf false) 1
  | minus : HasSign (.inf true) (-1)

/-- The operand of an operation on an angle. -/
def operand : Special.AngleOp → Ext
  | .assign x | .degrees x | .addAssign x | .add x | .subAssign x | .sub x | .mulAssign x | .mul x => x

/-- The operation gives the angle a new value that does not depend on the old one. -/
def Assigns : Special.AngleOp → Prop
  | .assign _ | .degrees _ => True
  | _ => False

/-- The values pushed since the last clear. -/
def pushed (ops : List Special.StatsOp) : List Ext :=
  ops.foldl (fun acc op => match op with | .push x => acc ++ [x] | .clear => []) []

open Classical in
/-- The mean that the recursive formula can deliver: the average of numbers; the infinity if that is the
first value that is not a number and the last of all; NaN otherwise. -/
noncomputable def meanOf (l : List Ext) : Ext :=
  if ∀ e ∈ l, Numeric e then .num (average (numbers l))
  else if ∀ e ∈ l.dropLast, Numeric e then l.getLastD .nan
  else .nan

open Classical in
/-- The variance: of less than two values 0, of numbers the sample variance, NaN otherwise. -/
noncomputable def varianceOf (l : List Ext) : Ext :=
  if l.length ≤ 1 then .num 0
  else if ∀ e ∈ l, Numeric e then .num (sampleVariance (numbers l))
  else .nan

/-- Less or equal; NaN is not comparable to anything. -/
inductive AtMost : Ext → Ext → Prop
  | numbers (x y : ℝ) (h : x ≤ y) : AtMost (.num x) (.num y)
  | below (x : ℝ) : AtMost (.inf true) (.num x)
  | above (x : ℝ) : AtMost (.num x) (.inf false)
  | ends : AtMost (.inf true) (.inf false)
  | same (s : Bool) : AtMost (.inf s) (.inf s)

/-- The operations since the last assignment, that one included. -/
def sinceAssigned : List Special.AngleOp → List Special.AngleOp
  | ops => ops.foldl (fun acc op =>
      match op with
      | .assign x => [.assign x]
      | .degrees x => [.degrees x]
      | o => acc ++ [o]) []

/-- The point lies on a leg of the trajectory whose two ends have numbers as coordinates. -/
def OnWholeLeg (l : List (Ext × Ext)) (r : ℝ × ℝ) : Prop :=
  ∃ (i : ℕ) (a b : ℝ × ℝ), l[i]? = some (Ext.num a.1, Ext.num a.2) ∧ l[i + 1]? = some (Ext.num b.1, Ext.num b.2) ∧
    OnSegment a b r

end Ecl.Spec
