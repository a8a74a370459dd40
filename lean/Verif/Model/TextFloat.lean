import Verif.Model.TextStream
import Mathlib.Data.Real.Basic

/-!
# Floating point numbers read from a text stream, with rounding (`ecl_streams/include/ecl/streams/text_streams/input_text_stream.hpp`)

As the extraction of `Model/TextStream.lean`, with the arithmetic of the code: `fl` rounds to the type that is read,
`fs` rounds to `float`, the type of `frac_multiplier` whatever is read.  Overflow is not modelled (25 digits are no
danger, even for `float`).
-/
set_option autoImplicit false

namespace Ecl.TextFloat
open Ecl.TextStream

/-- `0.1f`. -/
noncomputable def tenth : ℝ := 13421773 / 2 ^ 27

/-- `number = 10*number + (digits[k] - '0')` (`input_text_stream.hpp:682-684`). -/
noncomputable def intSum (fl : ℝ → ℝ) : ℝ → List Char → ℝ
  | n, [] => n
  | n, c :: cs => intSum fl (fl (fl (10 * n) + digVal c)) cs

/-- `frac_multiplier *= 0.1f; number = number + frac_multiplier*(digits[k] - '0')` (`input_text_stream.hpp:703-706`). -/
noncomputable def fracSum (fs fl : ℝ → ℝ) : ℝ → ℝ → List Char → ℝ
  | _, n, [] => n
  | mult, n, c :: cs => fracSum fs fl (fs (mult * tenth)) (fl (n + fs (fs (mult * tenth) * digVal c))) cs

/-- The part of `getFloatFromStream` after the sign (`input_text_stream.hpp:667-716`); the multiplication by the sign
is exact. -/
noncomputable def finishFloat (fs fl : ℝ → ℝ) (sign old : ℝ) (c : Char) (rest : List Char) : Got ℝ :=
  let r := fracLoop c rest 25
  let n := intSum fl 0 r.1
  if r.2.1 = '.' then
    match r.2.2 with
    | [] => ⟨old, .readError, []⟩
    | d :: ds =>
      let q := fracLoop d ds 25
      if r.1.length + q.1.length = 0 then ⟨old, .conversionError, q.2.2⟩
      else ⟨sign * fracSum fs fl 1 n q.1, .noError, q.2.2⟩
  else if r.1.length = 0 then ⟨old, .conversionError, r.2.2⟩
  else ⟨sign * n, .noError, r.2.2⟩

/-- `getFloatFromStream` (`input_text_stream.hpp:648-717`). -/
noncomputable def getFloat (fs fl : ℝ → ℝ) (old : ℝ) (inp : List Char) : Got ℝ :=
  match skip inp with
  | none => ⟨old, .readError, []⟩
  | some (c, cs) =>
    if c = '-' then
      match cs with
      | [] => ⟨old, .readError, []⟩
      | d :: ds => finishFloat fs fl (-1) old d ds
    else if c = '+' then
      match cs with
      | [] => ⟨old, .readError, []⟩
      | d :: ds => finishFloat fs fl 1 old d ds
    else finishFloat fs fl 1 old c cs

end Ecl.TextFloat
