import Verif.Model.ContainerFormatter

/-!
# Model of the formatter of poses

`ecl_linear_algebra/include/ecl/linear_algebra/sophus/formatters.hpp`.  The formatter keeps a pointer to the
pose: here its numbers at the time of the call, so that poses are taken to be alive and unchanged when they are
streamed.  `V` is the type of the numbers, `printf d v` the text of `v` with `d` decimals.
-/
set_option autoImplicit false

namespace Ecl.Form.Rigid
variable {V : Type}

/-- `translation()` and `unit_quaternion()` of a `Sophus::SE3f` (`sophus/formatters.hpp:182-183`). -/
structure SE3 (V : Type) where
  tx : V
  ty : V
  tz : V
  qx : V
  qy : V
  qz : V
  qw : V
  deriving DecidableEq, Repr

/-- `SE3fFormatter` (`sophus/formatters.hpp:149-155`); `tmp`: `tmp_width` and `tmp_precision` if `tmp_formatting`. -/
structure State (V : Type) where
  format : Float.State V
  tmp : Option (Int × Nat)
  ready : Bool
  pose : Option (SE3 V)

/-- Constructor (`50-57`). -/
def State.new (w : Int) (p : Nat) : State V := ⟨Float.State.new w (s32 p) .right .fixed, none, false, none⟩

/-- The calls (`65-132`). -/
inductive Op (V : Type) where
  | precision (p : Nat)
  | width (w : Int)
  | item (c : SE3 V)
  | itemWP (c : SE3 V) (w : Int) (p : Nat)
  | stream

/-- `ostream << before << format(v) << after` (`185-193`). -/
def put (m : Mode) (printf : Nat → V → Text) (f : Float.State V) (before : String) (v : V) (after : String) :
    Res (Float.State V) Text :=
  match Float.step m printf f (.item v) with
  | .ok f _ =>
    match Float.step m printf f .stream with
    | .ok f t => .ok f (before.toList ++ t ++ after.toList)
    | .throw f e => .throw f e
    | .ub => .ub
  | .throw f e => .throw f e
  | .ub => .ub

/-- `<<` one after the other. (`184-194`.) -/
def putAll (m : Mode) (printf : Nat → V → Text) : Float.State V → List (String × V × String) → Res (Float.State V) Text
  | f, [] => .ok f []
  | f, (b, v, a) :: l =>
    match put m printf f b v a with
    | .ok f t =>
      match putAll m printf f l with
      | .ok f ts => .ok f (t ++ ts)
      | .throw f e => .throw f e
      | .ub => .ub
    | .throw f e => .throw f e
    | .ub => .ub

/-- What is written (`184-194`): the brackets are added to the numbers they are next to. -/
def parts (c : SE3 V) : List (String × V × String) :=
  [("[x:", c.tx, "  "), ("y:", c.ty, "  "), ("z:", c.tz, "]"),
   ("[x:", c.qx, "  "), ("y:", c.qy, "  "), ("z:", c.qz, "  "), ("w:", c.qw, "  ]")]

/-- The calls (`65-80`, `104-132`, `158-204`). -/
def step (m : Mode) (printf : Nat → V → Text) (s : State V) : Op V → Res (State V) Text
  | .precision p => .ok { s with format := Cont.set m printf s.format (.precision p) } []
  | .width w => .ok { s with format := Cont.set m printf s.format (.width w) } []
  | .item c => .ok { s with pose := some c, ready := true } []
  | .itemWP c w p => .ok { s with pose := some c, tmp := some (w, p), ready := true } []
  | .stream =>
    if m = .debug ∧ (s.pose.isNone ∨ s.ready = false) then .throw s .usageError
    else if s.ready then
      match s.pose with
      | none => .ub
      | some c =>
        let p := s.format.cur.precision
        let w := s.format.cur.width
        let f := match s.tmp with
          | some (tw, tp) => Cont.set m printf (Cont.set m printf s.format (.precision tp)) (.width tw)
          | none => s.format
        match putAll m printf f (parts c) with
        | .ok f t =>
          let f := match s.tmp with
            | some _ => Cont.set m printf (Cont.set m printf f (.precision p.toNat)) (.width w)
            | none => f
          .ok { s with format := f, tmp := none, ready := false } t
        | .throw f e => .throw { s with format := f } e
        | .ub => .ub
    else .ok s []

end Ecl.Form.Rigid
