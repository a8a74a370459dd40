import Verif.Model.Polynomial
import Verif.Props.C39_C77_Math
import Mathlib.Tactic.FieldSimp
import Mathlib.Tactic.Ring
import Mathlib.Tactic.Linarith
import Mathlib.Tactic.LinearCombination
import Mathlib.Tactic.Positivity

/-! # Roots of the depressed cubic -/
set_option autoImplicit false
set_option linter.unusedSimpArgs false

namespace Ecl.Poly
open Ecl Real

theorem cos_two_thirds (x : ℝ) :
    cos (x - (2 * π) / 3) = -(1 / 2) * cos x + √3 / 2 * sin x := by
  have h1 : cos ((2 * π) / 3) = -(1 / 2) := by
    have : (2 * π) / 3 = π - π / 3 := by ring
    rw [this, cos_pi_sub, cos_pi_div_three]
  have h2 : sin ((2 * π) / 3) = √3 / 2 := by
    have : (2 * π) / 3 = π - π / 3 := by ring
    rw [this, sin_pi_sub, sin_pi_div_three]
  rw [cos_sub, h1, h2]; ring

theorem cos_four_thirds (x : ℝ) :
    cos (x - (4 * π) / 3) = -(1 / 2) * cos x - √3 / 2 * sin x := by
  have h1 : cos ((4 * π) / 3) = -(1 / 2) := by
    have : (4 * π) / 3 = π / 3 + π := by ring
    rw [this, cos_add_pi, cos_pi_div_three]
  have h2 : sin ((4 * π) / 3) = -(√3 / 2) := by
    have : (4 * π) / 3 = π / 3 + π := by ring
    rw [this, sin_add_pi, sin_pi_div_three]
  rw [cos_sub, h1, h2]; ring

/-- The casus irreducibilis: the three numbers are the roots. -/
theorem trig_factor {p q : ℝ} (hp : p < 0) (hD : p * p * p / 27 + q * q / 4 < 0) (t : ℝ) :
    let m := 2 * √(-p / 3)
    let th := 1 / 3 * arccos (((3 * q) / (2 * p)) * √(-3 / p))
    t ^ 3 + p * t + q =
      (t - m * cos th) * (t - m * cos (th - (2 * π) / 3)) * (t - m * cos (th - (4 * π) / 3)) := by
  intro m th
  have hp0 : p ≠ 0 := hp.ne
  have hm2 : m ^ 2 = -4 * p / 3 := by
    show (2 * √(-p / 3)) ^ 2 = _
    rw [mul_pow, sq_sqrt (by linarith)]; ring
  set w := ((3 * q) / (2 * p)) * √(-3 / p) with hw
  have hs : √(-3 / p) ^ 2 = -3 / p := sq_sqrt (div_nonneg_of_nonpos (by norm_num) hp.le)
  have hw2 : w ^ 2 ≤ 1 := by
    rw [hw, mul_pow, hs]
    have e : ((3 * q) / (2 * p)) ^ 2 * (-3 / p) = (27 * q ^ 2) / (-4 * p ^ 3) := by
      field_simp; ring
    rw [e, div_le_one (by nlinarith [pow_pos (neg_pos.2 hp) 3])]
    nlinarith
  have hww : w * w ≤ 1 := by rw [← sq]; exact hw2
  have hwb := abs_le.1 (abs_le_one_iff_mul_self_le_one.2 hww)
  have h3 : cos (3 * th) = w := by
    have : 3 * th = arccos w := by show 3 * (1 / 3 * arccos w) = _; ring
    rw [this, cos_arccos hwb.1 hwb.2]
  have hmw : p * m * w = 3 * q := by
    have hprod : √(-p / 3) * √(-3 / p) = 1 := by
      rw [← sqrt_mul (by linarith), show -p / 3 * (-3 / p) = 1 by field_simp, sqrt_one]
    show p * (2 * √(-p / 3)) * ((3 * q) / (2 * p) * √(-3 / p)) = _
    have : p * (2 * √(-p / 3)) * ((3 * q) / (2 * p) * √(-3 / p)) =
      (p * 2 * ((3 * q) / (2 * p))) * (√(-p / 3) * √(-3 / p)) := by ring
    rw [this, hprod]; field_simp
  rw [cos_two_thirds, cos_four_thirds]
  have hsc := sin_sq_add_cos_sq th
  have h33 : √3 ^ 2 = 3 := sq_sqrt (by norm_num)
  rw [cos_three_mul] at h3
  generalize cos th = a at *
  generalize sin th = b at *
  generalize √3 = r at *
  -- compare with `t³ + p t - (p m / 3) ... `
  have hb : b ^ 2 = 1 - a ^ 2 := by linarith
  have hq : q = p * m * (4 * a ^ 3 - 3 * a) / 3 := by rw [h3, hmw]; ring
  rw [hq]
  have hp' : p = -3 / 4 * m ^ 2 := by rw [hm2]; ring
  rw [hp']
  have : (t - m * a) * (t - m * (-(1 / 2) * a + r / 2 * b)) * (t - m * (-(1 / 2) * a - r / 2 * b)) =
      (t - m * a) * ((t + m * a / 2) ^ 2 - m ^ 2 * (r ^ 2 * b ^ 2) / 4) := by ring
  rw [this, h33, hb]
  ring

theorem cube_inj {x y : ℝ} (h : x ^ 3 = y ^ 3) : x = y :=
  (Odd.strictMono_pow (by decide : Odd 3)).injective h

/-- Positive discriminant: exactly one root. -/
theorem cardano {p q u v : ℝ} (hD : 0 < p * p * p / 27 + q * q / 4)
    (hu : u ^ 3 = -q / 2 + √(p * p * p / 27 + q * q / 4))
    (hv : v ^ 3 = -q / 2 - √(p * p * p / 27 + q * q / 4)) (t : ℝ) :
    t ^ 3 + p * t + q = 0 ↔ t = u + v := by
  have hs := sq_sqrt hD.le
  have hspos := sqrt_pos.2 hD
  generalize hd : √(p * p * p / 27 + q * q / 4) = s at *
  have huv : u * v = -p / 3 := by
    apply cube_inj
    rw [mul_pow, hu, hv]
    linear_combination -hs
  have hne : u ≠ v := by
    intro e
    rw [e, hv] at hu
    linarith
  have hsum : u ^ 3 + v ^ 3 = -q := by rw [hu, hv]; ring
  have fac : t ^ 3 + p * t + q = (t - (u + v)) * (t ^ 2 + (u + v) * t + (u + v) ^ 2 + p) := by
    have e1 : p = -3 * (u * v) := by rw [huv]; ring
    have e2 : q = -(u ^ 3 + v ^ 3) := by rw [hsum]; ring
    rw [e1, e2]; ring
  have hpos : 0 < t ^ 2 + (u + v) * t + (u + v) ^ 2 + p := by
    have e1 : p = -3 * (u * v) := by rw [huv]; ring
    have : t ^ 2 + (u + v) * t + (u + v) ^ 2 + p = (t + (u + v) / 2) ^ 2 + 3 / 4 * (u - v) ^ 2 := by
      rw [e1]; ring
    rw [this]
    have := sq_pos_of_ne_zero (sub_ne_zero.2 hne)
    nlinarith [sq_nonneg (t + (u + v) / 2)]
  rw [fac, mul_eq_zero, or_iff_left hpos.ne', sub_eq_zero]

theorem cubeRoot_iff (x y : ℝ) : y = Math.cubeRoot x ↔ y ^ 3 = x := by
  rw [eq_comm]; exact (Props.C77_cube_root x y).2

theorem cubeRoot_cube (x : ℝ) : Math.cubeRoot x ^ 3 = x := (Props.C77_cube_root x 0).1

/-- The numbers listed are exactly the roots of the depressed cubic, moved by `shift`. -/
theorem mem_depressedRoots (p q shift t : ℝ) :
    some (t + shift) ∈ depressedRoots p q (p * p * p / 27 + q * q / 4) shift ↔
      t ^ 3 + p * t + q = 0 := by
  unfold depressedRoots
  have add_inj : ∀ a : ℝ, (t + shift = a + shift) ↔ t = a := fun a => add_left_inj shift
  split
  next h =>
    rw [h.1, h.2]
    simp
  next h0 =>
    split
    next hp =>
      rw [hp]
      simp only [List.mem_singleton, Option.some.injEq, add_inj, cubeRoot_iff]
      constructor <;> intro h <;> linarith
    next hp =>
      split
      next hq =>
        rw [hq]
        have fac : t ^ 3 + p * t + 0 = t * (t ^ 2 + p) := by ring
        rw [fac, mul_eq_zero]
        by_cases hneg : -1 * p < 0
        · have : fsqrt (-1 * p) = none := if_pos hneg
          rw [this]
          simp only [Option.map_none, List.mem_cons, Option.some.injEq, reduceCtorEq, List.not_mem_nil, or_false]
          have : t ^ 2 + p ≠ 0 := by nlinarith [sq_nonneg t]
          simp [this]
        · have : fsqrt (-1 * p) = some (√(-1 * p)) := if_neg hneg
          rw [this]
          have hs : √(-1 * p) ^ 2 = -1 * p := sq_sqrt (not_lt.1 hneg)
          simp only [Option.map_some, List.mem_cons, Option.some.injEq, List.not_mem_nil, or_false, add_inj]
          have e : t ^ 2 + p = (t - √(-1 * p)) * (t - -√(-1 * p)) := by
            linear_combination hs
          rw [e, mul_eq_zero, sub_eq_zero, sub_eq_zero]
          simp
      next hq =>
        split
        next hD =>
          simp only [List.mem_cons, Option.some.injEq, List.not_mem_nil, or_false, add_inj]
          have fac : t ^ 3 + p * t + q = (t - 3 * q / p) * (t - -3 * q / (2 * p)) ^ 2 := by
            have h27 : 27 * q ^ 2 = -4 * p ^ 3 := by linear_combination 108 * hD
            have e : (t - 3 * q / p) * (t - -3 * q / (2 * p)) ^ 2 =
                t ^ 3 - (27 * q ^ 2) / (4 * p ^ 2) * t - (27 * q ^ 2) * q / (4 * p ^ 3) := by
              field_simp; ring
            rw [e, h27]; field_simp; ring
          rw [fac, mul_eq_zero, sub_eq_zero, pow_eq_zero_iff (by norm_num), sub_eq_zero]
        next hD =>
          split
          next hge =>
            have hpos : 0 < p * p * p / 27 + q * q / 4 := lt_of_le_of_ne hge (Ne.symm hD)
            rw [cardano hpos (cubeRoot_cube _) (cubeRoot_cube _)]
            simp only [List.mem_singleton, Option.some.injEq, add_inj]
          next hge =>
            have hlt := not_le.1 hge
            have hpneg : p < 0 := by
              by_contra hc
              have := mul_nonneg (mul_nonneg (not_lt.1 hc) (not_lt.1 hc)) (not_lt.1 hc)
              nlinarith [mul_self_nonneg q]
            rw [trig_factor hpneg hlt]
            simp only [List.mem_cons, Option.some.injEq, List.not_mem_nil, or_false, add_inj,
              mul_eq_zero, sub_eq_zero, or_assoc]

/-- No root is listed twice. -/
theorem nodup_depressedRoots (p q shift : ℝ) (h : ¬ (q = 0 ∧ 0 < p)) :
    (depressedRoots p q (p * p * p / 27 + q * q / 4) shift).Nodup := by
  unfold depressedRoots
  split
  · simp
  next h0 =>
    split
    · simp
    next hp =>
      split
      next hq =>
        have hneg : ¬ -1 * p < 0 := by
          intro hc; exact h ⟨hq, by linarith⟩
        have e : fsqrt (-1 * p) = some (√(-1 * p)) := if_neg hneg
        have hpos : 0 < √(-1 * p) := sqrt_pos.2 (lt_of_le_of_ne (not_lt.1 hneg) (by
          intro hc; exact hp (by linarith)))
        rw [e]
        simp only [Option.map_some, List.nodup_cons, List.mem_cons, List.not_mem_nil, or_false,
          Option.some.injEq, not_or, List.nodup_nil, not_false_eq_true, and_true]
        refine ⟨⟨?_, ?_⟩, ?_⟩ <;> intro hc <;> linarith
      next hq =>
        split
        next hD =>
          simp only [List.nodup_cons, List.mem_cons, List.not_mem_nil, or_false,
            Option.some.injEq, List.nodup_nil, not_false_eq_true, and_true]
          intro hc
          have hc' : 3 * q / p = -3 * q / (2 * p) := by linarith
          field_simp at hc'
          norm_num at hc'
        next hD =>
          split
          · simp
          next hge =>
            have hlt := not_le.1 hge
            have hpneg : p < 0 := by
              by_contra hc
              have := mul_nonneg (mul_nonneg (not_lt.1 hc) (not_lt.1 hc)) (not_lt.1 hc)
              nlinarith [mul_self_nonneg q]
            have fac := trig_factor hpneg hlt
            simp only at fac ⊢
            generalize 2 * √(-p / 3) * cos (1 / 3 * arccos (3 * q / (2 * p) * √(-3 / p))) = x at *
            generalize 2 * √(-p / 3) * cos (1 / 3 * arccos (3 * q / (2 * p) * √(-3 / p)) - 2 * π / 3) = y at *
            generalize 2 * √(-p / 3) * cos (1 / 3 * arccos (3 * q / (2 * p) * √(-3 / p)) - 4 * π / 3) = z at *
            have f0 := fac 0
            have f1 := fac 1
            have f2 := fac (-1)
            have s0 : q = -(x * y * z) := by linarith
            have s1 : x + y + z = 0 := by linarith
            have s2 : p = x * y + y * z + z * x := by linarith
            have hz : z = -x - y := by linarith
            have key : p * p * p / 27 + q * q / 4 = -((x - y) ^ 2 * (y - z) ^ 2 * (z - x) ^ 2) / 108 := by
              rw [s0, s2, hz]; ring
            rw [key] at hlt
            simp only [List.nodup_cons, List.mem_cons, List.not_mem_nil, or_false,
              Option.some.injEq, not_or, List.nodup_nil, not_false_eq_true, and_true, add_left_inj]
            refine ⟨⟨?_, ?_⟩, ?_⟩ <;> intro hc <;> rw [hc] at hlt <;> simp at hlt

theorem cubic_as_depressed {a b c d x : ℝ} (ha : a ≠ 0) :
    d + c * x + b * x ^ 2 + a * x ^ 3 =
      a * ((x - -b / (3 * a)) ^ 3 + (3 * a * c - b * b) / (3 * a * a) * (x - -b / (3 * a)) +
        (2 * b * b * b - 9 * a * b * c + 27 * a * a * d) / (27 * a * a * a)) := by
  field_simp
  ring

end Ecl.Poly
