import Verif.Model.PolynomialFloat

/-!
# Roots of cubics with rounding (`ecl_geometry/src/lib/polynomial.cpp:93-152`)

As `cubicRoots` of `Model/Polynomial.lean`, with every operation rounded by `fl` (to double).  Products by 1, -1 and 2
and quotients by 2 and 4 are exact and not rounded; operations are not contracted (fused); overflow and underflow are
not modelled.  A result is a number, or `none` for NaN.
-/
set_option autoImplicit false

namespace Ecl.CubicFloat
open Ecl.Poly (Coeffs)

/-- The functions of the C library used by `polynomial.cpp:124`, `137-147`: about their accuracy nothing is assumed. -/
structure Libm where
  /-- `ecl::cube_root`, made of `pow` (`ecl_math/include/ecl/math/simple.hpp:97-100`). -/
  cubeRoot : ℝ → ℝ
  /-- `acos` on `[-1, 1]`; elsewhere it is NaN. -/
  acos : ℝ → ℝ
  /-- `cos`. -/
  cos : ℝ → ℝ
  /-- `ecl::pi`. -/
  pi : ℝ

/-- `p` (`polynomial.cpp:108`). -/
noncomputable def p (fl : ℝ → ℝ) (a b c : ℝ) : ℝ :=
  fl (fl (fl (fl (3 * a) * c) - fl (b * b)) / fl (fl (3 * a) * a))

/-- `q` (`polynomial.cpp:109`). -/
noncomputable def q (fl : ℝ → ℝ) (a b c d : ℝ) : ℝ :=
  fl (fl (fl (fl (fl (2 * b * b) * b) - fl (fl (fl (9 * a) * b) * c)) + fl (fl (fl (27 * a) * a) * d)) /
    fl (fl (fl (27 * a) * a) * a))

/-- `discriminant` (`polynomial.cpp:110`). -/
noncomputable def discriminant (fl : ℝ → ℝ) (p q : ℝ) : ℝ := fl (fl (fl (fl (p * p) * p) / 27) + fl (q * q) / 4)

/-- `sqrt`, correctly rounded; NaN for negative arguments (`polynomial.cpp:129`). -/
noncomputable def fsqrt (fl : ℝ → ℝ) (x : ℝ) : Option ℝ := if x < 0 then none else some (fl (Real.sqrt x))

/-- The argument of `acos` (`polynomial.cpp:145-147`); `p` is negative there. -/
noncomputable def cosine (fl : ℝ → ℝ) (p q : ℝ) : ℝ :=
  fl (fl (fl (3 * q) / (2 * p)) * fl (Real.sqrt (fl (-3 / p))))

/-- One of the results of the last branch, from the angle (`polynomial.cpp:145-149`). -/
noncomputable def trigonometric (fl : ℝ → ℝ) (m : Libm) (p shift angle : ℝ) : ℝ :=
  fl (fl (2 * fl (Real.sqrt (fl (-p / 3))) * m.cos angle) + shift)

/-- The branches (`polynomial.cpp:114-151`). -/
noncomputable def roots (fl : ℝ → ℝ) (m : Libm) (p q discriminant shift : ℝ) : List (Option ℝ) :=
  if p = 0 ∧ q = 0 then [some shift]
  else if p = 0 then [some (fl (m.cubeRoot (-q) + shift))]
  else if q = 0 then
    [some shift, (fsqrt fl (-1 * p)).map fun s => fl (s + shift), (fsqrt fl (-1 * p)).map fun s => fl (-s + shift)]
  else if discriminant = 0 then [some (fl (fl (fl (3 * q) / p) + shift)), some (fl (fl (fl (-3 * q) / (2 * p)) + shift))]
  else if discriminant ≥ 0 then
    let u := m.cubeRoot (fl (-q / 2 + fl (Real.sqrt discriminant)))
    let v := m.cubeRoot (fl (-q / 2 - fl (Real.sqrt discriminant)))
    [some (fl (fl (u + v) + shift))]
  else if |cosine fl p q| ≤ 1 then
    let angle := fl (fl (1 / 3) * m.acos (cosine fl p q))
    [some (trigonometric fl m p shift angle), some (trigonometric fl m p shift (fl (angle - fl (2 * m.pi / 3)))),
      some (trigonometric fl m p shift (fl (angle - fl (4 * m.pi / 3))))]
  else [none, none, none]

/-- `Roots<CubicPolynomial>` (`polynomial.cpp:93-152`); for a zero leading coefficient see `cubicRoots` of
`Model/Polynomial.lean`. -/
noncomputable def cubicRoots (fl : ℝ → ℝ) (m : Libm) (poly : Coeffs ℝ) : List (Option ℝ) :=
  let a := poly 3
  let b := poly 2
  let c := poly 1
  let d := poly 0
  if a = 0 then [none, none, none]
  else
    let p := p fl a b c
    let q := q fl a b c d
    roots fl m p q (discriminant fl p q) (fl (-b / fl (3 * a)))

end Ecl.CubicFloat
