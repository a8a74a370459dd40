import Verif.Model.Converters

/-!
# Model of `ecl_formatters`

The output of a formatter is the text it writes to the stream.  The members `tmp_*` of the formatters
are not initialised by the constructors: they are optional values, and reading an absent one is
undefined.  The pointers `width_`, `alignment_`, ... point all to the permanent or all to the
temporary members, except inside the calls of `FormatFloat`, which redirect them one by one.
-/
set_option autoImplicit false

namespace Ecl.Form

/-- The text given to a stream (`ostream` of `number.hpp:224-305`). -/
abbrev Text := List Char

/-- `Alignment` (`ecl_formatters/include/ecl/formatters/common.hpp:29-35`). -/
inductive Align where
  | no | left | right | centre
  deriving DecidableEq, Repr

/-- `pad` (`number.hpp:297-305`). -/
def pad (n : Int) : Text := List.replicate n.toNat ' '

/-- `prePad` (`number.hpp:267-280`, `floats.hpp:403-416`, `strings.hpp:183-195`). -/
def prePad (a : Align) (n : Int) : Text :=
  if n ≤ 0 then []
  else
    match a with
    | .no => []
    | .left => []
    | .right => pad n
    | .centre => pad (n.tdiv 2 + n.tmod 2)

/-- `postPad` (`number.hpp:282-295`, `floats.hpp:418-431`, `strings.hpp:196-208`). -/
def postPad (a : Align) (n : Int) : Text :=
  if n ≤ 0 then []
  else
    match a with
    | .no => []
    | .left => pad n
    | .right => []
    | .centre => pad (n.tdiv 2)

/-- The padded text, `size` being what is taken for its length.  The difference is an `int`; the
alignment is read only if it is positive. (`number.hpp:228-235`, `244-252`, `261-264`;
`floats.hpp:363-401`; `strings.hpp:173-181`.) -/
def layout (w : Int) (a : Option Align) (size : Int) (t : Text) : Outcome Text :=
  if ¬ InInt (w - size) then .ub
  else if w - size ≤ 0 then .ok t
  else
    match a with
    | none => .ub
    | some a => .ok (prePad a (w - size) ++ t ++ postPad a (w - size))

/-! ## Integers -/

/-- `IntegralBase` (`number.hpp:37-42`). -/
inductive Base where
  | bin | hex | dec
  deriving DecidableEq, Repr

/-- How `Converter<char*>` treats the type: `char` by the unsigned code, signed types with the maximum
of the promoted type (`signed char` is promoted to `int`), unsigned types. (The overloads used at
`number.hpp:259-260`.) -/
inductive Kind where
  | plainChar | signed (promMax : Int) | unsigned
  deriving DecidableEq, Repr

/-- A number type: `sizeof` and treatment. (The template parameter `Number`, `number.hpp:56`.) -/
structure NumType where
  bytes : Nat
  kind : Kind
  deriving DecidableEq, Repr

/-- `formatBin` without padding (`number.hpp:230-234`). -/
def binText (bytes : Nat) (v : Int) : Text :=
  '0' :: 'b' :: (List.range (8 * bytes)).reverse.map fun i => if v / 2 ^ i % 2 = 0 then '0' else '1'

/-- `hex_string` (`number.hpp:242`). -/
def hexString : Text :=
  ['0', '1', '2', '3', '4', '5', '6', '7', '8', '9', 'a', 'b', 'c', 'd', 'e', 'f']

/-- `formatHex` without padding (`number.hpp:246-251`). -/
def hexText (bytes : Nat) (v : Int) : Text :=
  '0' :: 'x' :: (List.range (2 * bytes)).reverse.map fun i =>
    hexString.getD (v / 2 ^ (i * 4) % 16).toNat '?'

/-- `convert(value_)` with the buffer of 250 characters (`number.hpp:259-260`); `strlen` of the null
pointer is undefined. -/
def decText (ty : NumType) (v : Int) : Outcome Text := do
  let b ← Conv.bufNew 250
  let r ← match ty.kind with
    | .plainChar => Conv.bufChar b.1 b.2 v
    | .signed pm => Conv.bufSigned pm b.1 b.2 v
    | .unsigned => Conv.bufUnsigned b.1 b.2 v.toNat
  match r.2 with
  | none => .ub
  | some p => .ok (Conv.cstr r.1 p)

/-- `formatBin`, `formatHex`, `formatDec` (`number.hpp:224-265`). -/
def formatNumber (ty : NumType) (w : Int) (a : Option Align) (b : Base) (v : Int) : Outcome Text :=
  match b with
  | .bin => layout w a (8 * ty.bytes + 2) (binText ty.bytes v)
  | .hex => layout w a (2 * ty.bytes + 2) (hexText ty.bytes v)
  | .dec => do
    let s ← decText ty v
    layout w a s.length s

/-- Settings. (`number.hpp:158-160`.) -/
structure Fmt where
  width : Int
  align : Align
  base : Base
  deriving DecidableEq, Repr

/-- `FormatNumber` (`number.hpp:56-180`). -/
structure State where
  prm : Fmt
  tmpWidth : Option Int
  tmpAlign : Option Align
  tmpBase : Option Base
  useTmp : Bool
  ready : Bool
  value : Int
  deriving DecidableEq, Repr

/-- Constructor (`68`). -/
def State.new (w : Int) (a : Align) (b : Base) : State := ⟨⟨w, a, b⟩, none, none, none, false, false, 0⟩

/-- The calls (`number.hpp:80-152`). -/
inductive Op where
  | base (b : Base)
  | width (w : Int)
  | align (a : Align)
  | all (w : Int) (a : Align) (b : Base)
  | item (n : Int)
  | itemWB (n : Int) (w : Int) (b : Base)
  | itemWAB (n : Int) (w : Int) (a : Align) (b : Base)
  | stream
  deriving DecidableEq, Repr

/-- `base` (`185-190`). -/
def setBase (s : State) (b : Base) : State :=
  if s.useTmp then { s with tmpBase := some b } else { s with prm := { s.prm with base := b } }

/-- `width` (`192-200`). -/
def setWidth (s : State) (w : Int) : Outcome State :=
  if s.useTmp then
    if w > 0 then
      match s.tmpAlign with
      | none => .ub
      | some .no => .ok { s with tmpWidth := some w, tmpAlign := some .right }
      | some _ => .ok { s with tmpWidth := some w }
    else .ok { s with tmpWidth := some w }
  else
    if w > 0 ∧ s.prm.align = .no then .ok { s with prm := { s.prm with width := w, align := .right } }
    else .ok { s with prm := { s.prm with width := w } }

/-- `align` (`202-211`). -/
def setAlign (s : State) (a : Align) : State :=
  if s.useTmp then
    if a = .no then { s with tmpAlign := some a, tmpWidth := some 0 } else { s with tmpAlign := some a }
  else
    if a = .no then { s with prm := { s.prm with align := a, width := 0 } }
    else { s with prm := { s.prm with align := a } }

/-- A call that only changes the object. (`number.hpp:185-219`.) -/
def quiet (x : Outcome State) : Res State Text :=
  match x with
  | .ok s => .ok s []
  | .throw _ => .ub
  | .ub => .ub

/-- The calls (`185-219`, `312-396`).  In `operator()(n,w,a,b)` the alignment left by the last
temporary call is read by `width` before it is overwritten; the outcome does not depend on it, but
reading an uninitialised enumeration is undefined: the model lets this pass, as every compiler
does. -/
def step (m : Mode) (ty : NumType) (s : State) : Op → Res State Text
  | .base b => .ok (setBase s b) []
  | .width w => quiet (setWidth s w)
  | .align a => .ok (setAlign s a) []
  | .all w a b => quiet ((setWidth (setBase s b) w).bind fun s => .ok (setAlign s a))
  | .item n => .ok { s with value := n, ready := true } []
  | .itemWB n w b =>
    quiet ((setWidth (setBase { s with useTmp := true } b) w).bind fun s =>
      .ok { s with value := n, ready := true })
  | .itemWAB n w a b =>
    let s := setBase { s with useTmp := true } b
    let s := { s with tmpWidth := some w }
    let s := setAlign s a
    .ok { s with value := n, ready := true } []
  | .stream =>
    if s.ready then
      let r := if s.useTmp then
          match s.tmpWidth, s.tmpBase with
          | some w, some b => formatNumber ty w s.tmpAlign b s.value
          | _, _ => .ub
        else formatNumber ty s.prm.width (some s.prm.align) s.prm.base s.value
      match r with
      | .ok t => .ok { s with useTmp := false, ready := false } t
      | _ => .ub
    else
      match m with
      | .debug => .throw s .usageError
      | .release => .ok s []

/-! ## Floating point numbers -/

namespace Float

/-- `FloatBase` (`floats.hpp:42-46`). -/
inductive FBase where
  | fixed | sci
  deriving DecidableEq, Repr

/-- The number of decimals that the format string asks for (`floats.hpp:367-380`); a negative
`precision_` gives a malformed format string. -/
def decimals (p : Int) : Outcome Nat :=
  if p < 0 then .ub
  else if p < 10 then .ok p.toNat
  else if p < 20 then .ok (10 + (p - 10).toNat)
  else .ok 20

variable {V : Type}

/-- `formatFixed`, `formatSci` (`floats.hpp:363-401`): `printf d v` is the text of `v` with `d`
decimals; `snprintf` stores at most 29 characters. -/
def formatFloat (printf : Nat → V → Text) (w : Int) (a : Align) (p : Int) (b : FBase) (v : V) : Outcome Text :=
  match b with
  | .fixed => do
    let d ← decimals p
    let t := (printf d v).take 29
    layout w (some a) t.length t
  | .sci => .ok "Scientific format is not yet supported.\n".toList

/-- Settings. (`floats.hpp:215-218`.) -/
structure Fmt where
  width : Int
  precision : Int
  align : Align
  base : FBase
  deriving DecidableEq, Repr

/-- `FormatFloat` (`floats.hpp:60-237`); only `tmp_alignment` is initialised, the others are written
before they are read. -/
structure State (V : Type) where
  prm : Fmt
  tmp : Fmt
  useTmp : Bool
  item : Option V

/-- Constructor (`73-82`); the arguments of the derived classes are `int`s, converted to `unsigned`
and back (`506-507`, `529-530`). -/
def State.new (w p : Int) (a : Align) (b : FBase) : State V := ⟨⟨w, p, a, b⟩, ⟨0, 0, .no, .fixed⟩, false, none⟩

/-- Access through the pointers. (`floats.hpp:219-221`.) -/
def State.cur (s : State V) : Fmt := if s.useTmp then s.tmp else s.prm
/-- Stores through the pointers (`floats.hpp:219-221`). -/
def State.setCur (s : State V) (f : Fmt) : State V := if s.useTmp then { s with tmp := f } else { s with prm := f }

/-- The calls (`floats.hpp:97-209`). -/
inductive Op (V : Type) where
  | precision (p : Nat)
  | width (w : Int)
  | align (a : Align)
  | base (b : FBase)
  | setPW (p : Nat) (w : Int)
  | setAll (p : Nat) (w : Int) (a : Align) (b : FBase)
  | item (n : V)
  | itemPW (n : V) (p : Nat) (w : Int)
  | itemAll (n : V) (p : Nat) (w : Int) (a : Align) (b : FBase)
  | stream

/-- `width` (`257-266`) on given width and alignment. -/
def widthRule (w : Int) (a : Align) : Align := if w > 0 ∧ a = .no then .right else a

/-- `align` (`273-282`): the width it leaves. -/
def alignRule (a : Align) (w : Int) : Int := if a = .no then 0 else w

/-- `operator()(n,p,w,...)` (`319-357`): `width(w)` is called when `width_` already points to the
temporary width, but `alignment_` still to the old place. -/
def redirect (s : State V) (p : Nat) (w : Int) (a : Align) (b : FBase) : State V :=
  let old := s.cur
  let s := s.setCur { old with align := widthRule w old.align }
  { s with tmp := { width := alignRule a w, precision := s32 p, align := a, base := b }, useTmp := true }

/-- The calls (`97`, `247-357`, `446-481`).  The arguments `prm_alignment` and `prm_base` of the three
argument form are read after `width(w)`. -/
def step (m : Mode) (printf : Nat → V → Text) (s : State V) : Op V → Res (State V) Text
  | .precision p => .ok (s.setCur { s.cur with precision := s32 p }) []
  | .width w => .ok (s.setCur { s.cur with width := w, align := widthRule w s.cur.align }) []
  | .align a => .ok (s.setCur { s.cur with align := a, width := alignRule a s.cur.width }) []
  | .base b => .ok (s.setCur { s.cur with base := b }) []
  | .setPW p w =>
    .ok (s.setCur { s.cur with width := w, align := widthRule w s.cur.align, precision := s32 p }) []
  | .setAll p w a b => .ok (s.setCur { width := alignRule a w, precision := s32 p, align := a, base := b }) []
  | .item n => .ok { s with item := some n } []
  | .itemPW n p w =>
    let prmAlign := if s.useTmp then s.prm.align else widthRule w s.prm.align
    .ok { redirect s p w prmAlign s.prm.base with item := some n } []
  | .itemAll n p w a b => .ok { redirect s p w a b with item := some n } []
  | .stream =>
    match s.item with
    | some v =>
      match formatFloat printf s.cur.width s.cur.align s.cur.precision s.cur.base v with
      | .ok t => .ok { s with useTmp := false, item := none } t
      | _ => .ub
    | none =>
      match m with
      | .debug => .throw s .usageError
      | .release => .ok s []

end Float

/-! ## Strings -/

namespace Str

/-- `Format<std::string>` (`strings.hpp:41-167`): `ready_to_format` is not initialised. -/
structure State where
  width : Int
  align : Align
  ready : Option Bool
  s : Text
  deriving DecidableEq, Repr

/-- Constructor (`52`). -/
def State.new (w : Int) (a : Align) : State := ⟨w, a, none, []⟩

/-- The calls (`strings.hpp:62-126`). -/
inductive Op where
  | width (w : Int)
  | align (a : Align)
  | all (w : Int) (a : Align)
  | item (t : Text)
  | itemW (t : Text) (w : Int)
  | itemWA (t : Text) (w : Int) (a : Align)
  | stream
  deriving DecidableEq, Repr

/-- The calls (`strings.hpp:62-68`, `strings.cpp:31-62`, `strings.hpp:173-239`). -/
def step (m : Mode) (s : State) : Op → Res State Text
  | .width w => .ok { s with width := w } []
  | .align a => .ok { s with align := a } []
  | .all w a => .ok { s with width := w, align := a } []
  | .item t => .ok { s with s := t, ready := some true } []
  | .itemW t w => .ok { s with width := w, s := t, ready := some true } []
  | .itemWA t w a => .ok { s with width := w, align := a, s := t, ready := some true } []
  | .stream =>
    match s.ready with
    | none => .ub
    | some true =>
      match layout s.width (some s.align) s.s.length s.s with
      | .ok t => .ok { s with ready := some false } t
      | _ => .ub
    | some false =>
      match m with
      | .debug => .throw s .usageError
      | .release => .ok s []

end Str
end Ecl.Form
