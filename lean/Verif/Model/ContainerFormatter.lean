import Verif.Model.Formatters
import Mathlib.Data.Nat.Log
import Mathlib.Algebra.Order.Floor.Semiring
import Mathlib.Data.Rat.Floor

/-!
# Model of the formatters of containers and matrices

`ecl_containers/include/ecl/containers/common/formatters.hpp` (also the `ArrayFormatter` of floating point numbers,
`array/formatters.hpp:279-322`), `ecl_linear_algebra/include/ecl/linear_algebra/eigen/formatters.hpp`, and the formatters
of bytes (`array/formatters.hpp:106-213`, `push_and_pop/formatters.hpp:105-173`).  A formatter keeps a pointer to
the container: here the container's elements at the time of the call, so that containers are taken to be alive and
unchanged when they are streamed.  `V` is the type of the elements, `val` their value, `printf d v` the text of `v`
with `d` decimals.
-/
set_option autoImplicit false

namespace Ecl.Form

/-! ## Containers of floating point numbers -/

namespace Cont
variable {V : Type}

/-- `FloatContainerFormatter` (`common/formatters.hpp:66-182`). -/
structure State (V : Type) where
  oldPrecision : Int
  tmpWidth : Int
  prmWidth : Int
  useTmp : Bool
  format : Float.State V
  container : Option (List V)
  ready : Bool

/-- Constructor (`80-88`). -/
def State.new (p : Nat) (w : Int) : State V :=
  ⟨-1, -1, w, false, Float.State.new w (s32 p) .right .fixed, none, false⟩

/-- The calls of a `FloatContainerFormatter` (`common/formatters.hpp:100-171`). -/
inductive Op (V : Type) where
  | precision (p : Nat)
  | width (w : Int)
  | setPW (p : Nat) (w : Int)
  | item (c : List V)
  | itemPW (c : List V) (p : Nat) (w : Int)
  | stream

/-- `ceil(log10(fabs(x)+1))` (`196-197`), without rounding errors. -/
def places (x : ℚ) : Nat := Nat.clog 10 (⌈|x|⌉₊ + 1)

/-- `digits` (`192-209`). -/
def digits (precision : Int) (lo hi : ℚ) : Int :=
  let minDigits := places lo
  let maxDigits := places hi
  let actual : Int :=
    if minDigits < maxDigits then maxDigits
    else if minDigits = 0 ∧ maxDigits = 0 then 1
    else minDigits
  (if lo < 0 then actual + 1 else actual) + (1 + precision)

/-- The loop that looks for the least and the greatest element (`229-237`). -/
def range (val : V → ℚ) (c : V) (cs : List V) : ℚ × ℚ :=
  cs.foldl (fun (r : ℚ × ℚ) x =>
    let hi := if val x > r.2 then val x else r.2
    let lo := if val x < r.1 then val x else r.1
    (lo, hi)) (val c, val c)

/-- The width of the cells (`223-244`): the first element of an empty container does not exist. -/
def chosen (val : V → ℚ) (precision : Int) (w : Int) (c : List V) : Outcome Int :=
  if w = -1 then
    match c with
    | [] => .ub
    | x :: xs => .ok (digits precision (range val x xs).1 (range val x xs).2)
  else .ok w

/-- The loop that prints (`251-253`). -/
def printAll (m : Mode) (printf : Nat → V → Text) : Float.State V → List V → Res (Float.State V) Text
  | f, [] => .ok f []
  | f, v :: vs =>
    match Float.step m printf f (.item v) with
    | .ok f _ =>
      match Float.step m printf f .stream with
      | .ok f t =>
        match printAll m printf f vs with
        | .ok f ts => .ok f (t ++ " ".toList ++ ts)
        | .throw f e => .throw f e
        | .ub => .ub
      | .throw f e => .throw f e
      | .ub => .ub
    | .throw f e => .throw f e
    | .ub => .ub

/-- Settings of the format member. (`format.precision(p)`, `format.width(w)` at
`common/formatters.hpp:100,126,155,241,243,260`.) -/
def set (m : Mode) (printf : Nat → V → Text) (f : Float.State V) (op : Float.Op V) : Float.State V :=
  match Float.step m printf f op with
  | .ok f _ => f
  | .throw f _ => f
  | .ub => f

/-- The calls (`100`, `111`, `126`, `137`, `151-159`, `215-269`). -/
def step (m : Mode) (val : V → ℚ) (printf : Nat → V → Text) (s : State V) : Op V → Res (State V) Text
  | .precision p => .ok { s with format := set m printf s.format (.precision p) } []
  | .width w => .ok { s with prmWidth := w } []
  | .setPW p w => .ok { s with format := set m printf s.format (.precision p), prmWidth := w } []
  | .item c => .ok { s with container := some c, ready := true } []
  | .itemPW c p w =>
    .ok { s with container := some c, ready := true, oldPrecision := s.format.cur.precision,
                 format := set m printf s.format (.precision p), tmpWidth := w, useTmp := true } []
  | .stream =>
    if m = .debug ∧ s.ready = false then .throw s .usageError
    else match s.container with
      | none => .ub
      | some c =>
        let w := if s.useTmp then s.tmpWidth else s.prmWidth
        match chosen val s.format.cur.precision w c with
        | .ok width =>
          match printAll m printf (set m printf s.format (.width width)) c with
          | .ok f t =>
            let f := if s.oldPrecision ≠ -1 then set m printf f (.precision s.oldPrecision.toNat) else f
            .ok { s with format := f, oldPrecision := -1, useTmp := false, ready := false }
              ("[ ".toList ++ t ++ "]".toList)
          | .throw f e => .throw { s with format := f } e
          | .ub => .ub
        | _ => .ub

end Cont

/-! ## Matrices -/

namespace Mat
variable {V : Type}

/-- `FloatMatrixFormatter` (`eigen/formatters.hpp:60-194`); a matrix is the list of its rows. -/
structure State (V : Type) where
  format : Float.State V
  tmp : Option (Int × Nat)
  ready : Bool
  matrix : Option (List (List V))

/-- Constructor (`73-80`). -/
def State.new (m : Mode) (printf : Nat → V → Text) (w : Int) (p : Nat) : State V :=
  ⟨Cont.set m printf (Cont.set m printf (Float.State.new (-1) 4 .no .fixed) (.width w)) (.precision p), none, false, none⟩

/-- The calls of a `FloatMatrixFormatter` (`eigen/formatters.hpp:94-185`). -/
inductive Op (V : Type) where
  | precision (p : Nat)
  | width (w : Int)
  | item (c : List (List V))
  | itemWP (c : List (List V)) (w : Int) (p : Nat)
  | stream

/-- One row (`227-230`). -/
def printRow (m : Mode) (printf : Nat → V → Text) : Float.State V → List V → Res (Float.State V) Text
  | f, [] => .ok f []
  | f, v :: vs =>
    match Float.step m printf f (.item v) with
    | .ok f _ =>
      match Float.step m printf f .stream with
      | .ok f t =>
        match printRow m printf f vs with
        | .ok f ts => .ok f (t ++ "  ".toList ++ ts)
        | .throw f e => .throw f e
        | .ub => .ub
      | .throw f e => .throw f e
      | .ub => .ub
    | .throw f e => .throw f e
    | .ub => .ub

/-- All rows (`225-234`); `one`: the matrix has one row. -/
def printRows (m : Mode) (printf : Nat → V → Text) (one : Bool) : Float.State V → List (List V) → Res (Float.State V) Text
  | f, [] => .ok f []
  | f, r :: rs =>
    match printRow m printf f r with
    | .ok f t =>
      match printRows m printf one f rs with
      | .ok f ts => .ok f (t ++ (if one then [] else "\n".toList) ++ ts)
      | .throw f e => .throw f e
      | .ub => .ub
    | .throw f e => .throw f e
    | .ub => .ub

/-- The calls (`94-110`, `140-169`, `196-244`). -/
def step (m : Mode) (printf : Nat → V → Text) (s : State V) : Op V → Res (State V) Text
  | .precision p => .ok { s with format := Cont.set m printf s.format (.precision p) } []
  | .width w => .ok { s with format := Cont.set m printf s.format (.width w) } []
  | .item c => .ok { s with matrix := some c, ready := true } []
  | .itemWP c w p => .ok { s with matrix := some c, tmp := some (w, p), ready := true } []
  | .stream =>
    if m = .debug ∧ (s.matrix.isNone ∨ s.ready = false) then .throw s .usageError
    else if s.ready then
      match s.matrix with
      | none => .ub
      | some c =>
        let p := s.format.cur.precision
        let w := s.format.cur.width
        let f := match s.tmp with
          | some (tw, tp) => Cont.set m printf (Cont.set m printf s.format (.precision tp)) (.width tw)
          | none => s.format
        match printRows m printf (c.length == 1) f c with
        | .ok f t =>
          let f := match s.tmp with
            | some _ => Cont.set m printf (Cont.set m printf f (.precision p.toNat)) (.width w)
            | none => f
          .ok { s with format := f, tmp := none, ready := false } t
        | .throw f e => .throw { s with format := f } e
        | .ub => .ub
    else .ok s []

end Mat

/-! ## Bytes -/

namespace Bytes

/-- `ByteArrayFormatter`, `BytePushAndPopFormatter`: the bytes and whether it is ready; the operator that
prints takes a constant formatter (`array/formatters.hpp:195`, `push_and_pop/formatters.hpp:157`). -/
structure State where
  bytes : Option (List Int)
  ready : Bool
  deriving DecidableEq, Repr

/-- Constructor (`array/formatters.hpp:117`). -/
def State.new : State := ⟨none, false⟩

/-- The calls (`array/formatters.hpp:126-182`, `push_and_pop/formatters.hpp:125-130`). -/
inductive Op where
  | item (bs : List Int)
  | stream
  deriving DecidableEq, Repr

/-- The calls (`126-167`, `194-213`; `125-130`, `156-173`). `format(*iter)` prints a byte in base 16 (`Format<char>`). -/
def step (m : Mode) (s : State) : Op → Res State Text
  | .item bs => .ok ⟨some bs, true⟩ []
  | .stream =>
    if m = .debug ∧ s.ready = false then .throw s .usageError
    else match s.bytes with
      | none => .ub
      | some bs => .ok s ("[ ".toList ++ (bs.map fun b => hexText 1 b ++ " ".toList).flatten ++ "]".toList)

end Bytes

end Ecl.Form
