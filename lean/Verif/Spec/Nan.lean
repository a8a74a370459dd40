import Verif.Model.NanTrajectory
import Verif.Model.Special
import Mathlib.Analysis.Complex.Trigonometric

/-!
# Specification for NaN in splines and trajectories (C131)
-/
set_option autoImplicit false

namespace Ecl.Nan.Spec
open Ecl Ecl.Nan

variable {F : Type}

/-- NaN spreads, as IEEE 754 and the C library have it: the result of an operation on a NaN is a NaN, and no
comparison with one holds. -/
structure Spreads (A : Arith F) (isNan : F → Prop) : Prop where
  add : ∀ a b, isNan a ∨ isNan b → isNan (A.add a b)
  sub : ∀ a b, isNan a ∨ isNan b → isNan (A.sub a b)
  mul : ∀ a b, isNan a ∨ isNan b → isNan (A.mul a b)
  div : ∀ a b, isNan a ∨ isNan b → isNan (A.div a b)
  neg : ∀ a, isNan a → isNan (A.neg a)
  abs : ∀ a, isNan a → isNan (A.abs a)
  sqrt : ∀ a, isNan a → isNan (A.sqrt a)
  sinh : ∀ a, isNan a → isNan (A.sinh a)
  cosh : ∀ a, isNan a → isNan (A.cosh a)
  lt : ∀ a b, isNan a ∨ isNan b → A.lt a b = false
  le : ∀ a b, isNan a ∨ isNan b → A.le a b = false
  eq : ∀ a b, isNan a ∨ isNan b → A.eq a b = false

/-- What IEEE 754 and the C library say about zeros: a zero times anything is a zero or NaN, `sinh` of a zero is a
zero, and a zero divided by a zero is NaN. -/
structure Zeros (A : Arith F) (isNan isZero : F → Prop) : Prop where
  mul : ∀ a b, isZero a → isZero (A.mul a b) ∨ isNan (A.mul a b)
  sinh : ∀ a, isZero a → isZero (A.sinh a)
  div : ∀ a b, isZero a → isZero b → isNan (A.div a b)

/-- Somewhere in the data of the waypoints there is a NaN: an angle of a joint, the duration of a segment, or a
configured rate at one of the two ends. -/
def HasNan (isNan : F → Prop) (joints : ℕ) (ws : List (WayPoint F)) : Prop :=
  (∃ w ∈ ws, ∃ j < joints, ∃ a, w.angles[j]? = some a ∧ isNan a) ∨
  (∃ w ∈ ws.dropLast, isNan w.duration) ∨
  (∃ w, (ws.head? = some w ∨ ws.getLast? = some w) ∧ w.ratesConfigured = true ∧
    ∃ j < joints, ∃ r, w.rates[j]? = some r ∧ isNan r)

/-- The rate a trajectory starts or ends with: the one configured, otherwise 0. -/
def endRate (A : Arith F) (w : WayPoint F) (j : ℕ) : F := if w.ratesConfigured then w.rates.getD j (A.lit 0) else A.lit 0

/-- The slopes of the tangent at an end and of the line to it that has the nominal rate are told apart. -/
def Apart (A : Arith F) (joints : ℕ) (ws : List (WayPoint F)) : Prop :=
  (∀ w, ws.head? = some w → ∀ j < joints,
    isApprox A (endRate A w j) (opposite A (endRate A w j) (w.nominal.getD j (A.lit 0))) = false) ∧
  (∀ v w, ws.dropLast.getLast? = some v → ws.getLast? = some w → ∀ j < joints,
    isApprox A (endRate A w j) (opposite A (endRate A w j) (v.nominal.getD j (A.lit 0))) = false)

open Ecl.Poly Ecl.Poly.Ext

/-- Arithmetic without rounding and with the special values of `double`, as one that meets `Spreads` and `Zeros`;
a zero that is divided by counts as positive. -/
noncomputable def exact : Arith Ext where
  lit q := num q
  add := add
  sub := sub
  mul := mul
  div := div false
  neg := neg
  abs := Special.abs
  sqrt := sqrt
  sinh
    | num x => num (Real.sinh x)
    | e => e
  cosh
    | num x => num (Real.cosh x)
    | inf _ => inf false
    | nan => nan
  lt := Special.lt
  le := Special.le
  eq := eq

/-- A waypoint of numbers, with positive nominal rates and a positive duration. -/
def Ordinary (w : WayPoint Ext) : Prop :=
  (∀ a ∈ w.angles, ∃ x, a = num x) ∧ (∀ r ∈ w.nominal, ∃ x, 0 < x ∧ r = num x) ∧ ∃ x, 0 < x ∧ w.duration = num x

end Ecl.Nan.Spec
