import Verif.Model.Time

/-!
# Durations: the reader's side

Only the record `Ts` is taken from the model.
-/
set_option autoImplicit false

namespace Ecl.Time

/-- The duration a timestamp stands for, in nanoseconds. -/
def Ts.total (a : Ts) : Int := a.sec * 1000000000 + a.nsec

/-- Normalised timestamp: less than a second of nanoseconds, sign agreeing with the seconds. -/
def Ts.Norm (a : Ts) : Prop :=
  -1000000000 < a.nsec ∧ a.nsec < 1000000000 ∧ (0 < a.sec → 0 ≤ a.nsec) ∧ (a.sec < 0 → a.nsec ≤ 0)

/-- A `timespec` the operating system accepts, and what its clocks return. -/
def Ts.Valid (a : Ts) : Prop := 0 ≤ a.sec ∧ 0 ≤ a.nsec ∧ a.nsec < 1000000000

/-- Durations that have a normalised timestamp with `long` seconds. -/
def Representable (t : Int) : Prop :=
  -9223372036854775808999999999 ≤ t ∧ t ≤ 9223372036854775807999999999

/-- Fields of a timestamp object are `long`s. -/
def Ts.InRange (a : Ts) : Prop := InLong a.sec ∧ InLong a.nsec

instance (a : Ts) : Decidable a.Norm := by unfold Ts.Norm; exact inferInstance
instance (a : Ts) : Decidable a.Valid := by unfold Ts.Valid; exact inferInstance

/-- Nine digits, zero padded. -/
def pad9 (n : Nat) : List Char :=
  List.replicate (9 - (Nat.toDigits 10 n).length) '0' ++ Nat.toDigits 10 n

/-- Decimal text of a duration of `t` nanoseconds in seconds with nine decimals. -/
def decimalText (t : Int) : List Char :=
  (if t < 0 then ['-'] else []) ++ Nat.toDigits 10 (t.natAbs / 1000000000) ++ ['.'] ++
    pad9 (t.natAbs % 1000000000)

/-- Nanoseconds per unit of a sleep class. -/
def unit : SleepKind → Nat
  | .sec => 1000000000
  | .milli => 1000000
  | .micro => 1000
  | .nano => 1

/-- Durations (ns) a sequence of calls on a sleep object asks for: the argument where one is given,
else the duration configured last. -/
def wanted (k : SleepKind) : Nat → List SleepOp → List Nat
  | _, [] => []
  | last, .fixed :: ops => last :: wanted k last ops
  | _, .call n :: ops => (n * unit k) :: wanted k (n * unit k) ops

/-- Differences of consecutive readings, starting from `t₀`. -/
def diffs : Int → List Int → List Int
  | _, [] => []
  | t₀, t :: ts => (t - t₀) :: diffs t ts

end Ecl.Time
