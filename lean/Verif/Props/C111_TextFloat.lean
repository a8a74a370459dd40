import Verif.Lemmas.TextFloat
import Verif.Lemmas.StatisticsFloat

/-! # C111: decimal fractions read from a stream in floating point arithmetic -/
set_option autoImplicit false
set_option linter.unusedSimpArgs false

namespace Ecl.Props
open Ecl Ecl.TextFloat Ecl.Spec

/-- **C111, partial.** A decimal fraction (at most 25 digits before and behind the point), read into a type with `p` bits
(24: float, 53: double), is the number it denotes up to the errors of the type and, whatever the type, six units of
the precision of float.  Missing: numbers at the end of the input (`C46_fails_end`); a result as exact as the type
(`C111_fails_double`, `C111_fails_float`). -/
theorem C111_fraction_partial {p : ℕ} {fs fl : ℝ → ℝ} (hs : Rounds 24 fs) (hfl : Rounds p fl) (hp : 24 ≤ p)
    (old : ℝ) (bl sg is qs : List Char) (e : Char) (s : List Char)
    (hbl : AllBlank bl) (hsg : sg = [] ∨ sg = ['+'] ∨ sg = ['-'])
    (hi : ∀ c ∈ is, c.isDigit = true) (hf : ∀ c ∈ qs, c.isDigit = true)
    (hne : is ≠ [] ∨ qs ≠ []) (hil : is.length ≤ 25) (hql : qs.length ≤ 25) (he : e.isDigit = false) :
    (getFloat fs fl old (bl ++ sg ++ is ++ '.' :: qs ++ e :: s)).err = .noError ∧
    (getFloat fs fl old (bl ++ sg ++ is ++ '.' :: qs ++ e :: s)).rest = s ∧
    |(getFloat fs fl old (bl ++ sg ++ is ++ '.' :: qs ++ e :: s)).val -
        (if sg = ['-'] then -1 else 1) * (decValue is + fracValue qs)| ≤
      (3 * is.length + 2 * qs.length) * (decValue is + 1) / 2 ^ p + 6 / 2 ^ 24 := by
  rw [getFloat_fraction fs fl old bl sg is qs e s hbl hsg hi hf hne hil hql he]
  refine ⟨rfl, rfl, ?_⟩
  dsimp only
  rw [← mul_sub, abs_mul]
  have e1 : |(if sg = ['-'] then -1 else 1 : ℝ)| = 1 := by split <;> simp
  rw [e1, one_mul]
  have hv : (0 : ℝ) ≤ decValue is := by positivity
  have hil' : (is.length : ℝ) ≤ 25 := by exact_mod_cast hil
  have hql' : (qs.length : ℝ) ≤ 25 := by exact_mod_cast hql
  have hn := intSum_error hfl hp is hil
  have := fracSum_error hs hfl hp (X := decValue is + 1) (by linarith) qs 0 1 (intSum fl 0 is) (decValue is)
    (3 * is.length) 0 (by omega) hf (by norm_num) hv (by norm_num) (by positivity) (by linarith) le_rfl (by norm_num)
    (hn.trans (by
      rw [zero_mul, add_zero]
      have hu : (0 : ℝ) < 1 / 2 ^ p := by positivity
      have : (0 : ℝ) ≤ 3 * is.length * (1 / 2 ^ p) := by positivity
      nlinarith))
  norm_num at this ⊢
  refine this.trans (le_of_eq ?_)
  ring

/-- **C111.** Integers (at most 25 digits) up to `2^p` are read exactly. -/
theorem C111_integer {p : ℕ} {fs fl : ℝ → ℝ} (hfl : Rounds p fl) (hp : 1 ≤ p)
    (old : ℝ) (bl sg is : List Char) (e : Char) (s : List Char)
    (hbl : AllBlank bl) (hsg : sg = [] ∨ sg = ['+'] ∨ sg = ['-']) (hi : Digits is) (hil : is.length ≤ 25)
    (he : e.isDigit = false) (he' : e ≠ '.') (hv : decValue is ≤ 2 ^ p) :
    getFloat fs fl old (bl ++ sg ++ is ++ e :: s) =
      ⟨(if sg = ['-'] then -1 else 1) * (decValue is : ℝ), .noError, s⟩ := by
  rw [getFloat_integer fs fl old bl sg is e s hbl hsg hi hil he he', intSum_exact hfl hp is hv]

namespace C111

theorem zero_point {p : ℕ} {fs fl : ℝ → ℝ} (hs : Rounds 24 fs) (hfl : Rounds p fl) (old : ℝ) (c : Char)
    (hc : c.isDigit = true) :
    (getFloat fs fl old ['0', '.', c, ' ']).val = fl (fs (tenth * TextStream.digVal c)) := by
  have h := getFloat_fraction fs fl old [] [] ['0'] [c] ' ' [] (by intro c h; simp at h) (by simp) (by decide)
    (by simpa using hc) (by simp) (by simp) (by simp) (by decide)
  have e : ([] ++ [] ++ ['0'] ++ '.' :: [c] ++ ' ' :: [] : List Char) = ['0', '.', c, ' '] := rfl
  rw [e] at h
  rw [h]
  have h0 : fl 0 = 0 := hfl.self (isFloat_zero p)
  have ht : fs tenth = tenth := by
    apply hs.self
    refine ⟨13421773, -27, by norm_num, ?_⟩
    unfold tenth
    norm_num
  have hd : TextStream.digVal '0' = 0 := rfl
  simp [intSum, fracSum, h0, ht, hd]

theorem tenth_float {p : ℕ} (hp : 24 ≤ p) {m : ℤ} {e : ℤ} (h : |m| < 2 ^ 24) : IsFloat p (m * (2 : ℝ) ^ e) :=
  ⟨m, e, h.trans_le (pow_le_pow_right₀ (by norm_num) hp), rfl⟩

end C111

open C111 in
/-- **C111 fails.** "0.1" read into a double is `0.1f`: wrong in the ninth decimal place, where a double is exact to
sixteen. -/
theorem C111_fails_double {fs fl : ℝ → ℝ} (hs : Rounds 24 fs) (hfl : Rounds 53 fl) (old : ℝ) :
    1 / 10 ^ 9 < |(getFloat fs fl old "0.1 ".toList).val - 1 / 10| ∧
    ∃ y, IsFloat 53 y ∧ |y - 1 / 10| < 1 / 10 ^ 16 := by
  constructor
  · have e : "0.1 ".toList = ['0', '.', '1', ' '] := rfl
    rw [e, zero_point hs hfl old '1' (by decide)]
    have hd : TextStream.digVal '1' = 1 := rfl
    have ht : tenth = ((13421773 : ℤ) : ℝ) * (2 : ℝ) ^ (-27 : ℤ) := by unfold tenth; norm_num
    rw [hd, Nat.cast_one, mul_one, ht, hs.self (tenth_float le_rfl (by norm_num)),
      hfl.self (tenth_float (by norm_num) (by norm_num))]
    rw [lt_abs]
    left
    norm_num
  · refine ⟨((7205759403792794 : ℤ) : ℝ) * (2 : ℝ) ^ (-56 : ℤ), ⟨_, _, by norm_num, rfl⟩, ?_⟩
    rw [abs_lt]
    constructor <;> norm_num

open C111 in
/-- **C111 fails.** "0.9" read into a float is not the float that is nearest to it. -/
theorem C111_fails_float {fl : ℝ → ℝ} (hs : Rounds 24 fl) (old : ℝ) :
    ∃ y, IsFloat 24 y ∧ |y - 9 / 10| < |(getFloat fl fl old "0.9 ".toList).val - 9 / 10| := by
  have e : "0.9 ".toList = ['0', '.', '9', ' '] := rfl
  rw [e, zero_point hs hs old '9' (by decide)]
  have hd : TextStream.digVal '9' = 9 := rfl
  rw [hd]
  have hv : fl (tenth * ((9 : ℕ) : ℝ)) = 15099495 / 2 ^ 24 := by
    have ez : tenth * ((9 : ℕ) : ℝ) = 120795957 / 2 ^ 27 := by unfold tenth; norm_num
    rw [ez]
    have h1 : IsFloat 24 (15099495 / 2 ^ 24) := by
      have := tenth_float (p := 24) le_rfl (m := 15099495) (e := -24) (by norm_num)
      norm_num at this ⊢
      exact this
    obtain ⟨hf, hn⟩ := hs (120795957 / 2 ^ 27)
    have h2 := abs_le.1 (hn _ h1)
    rw [show |(15099495 : ℝ) / 2 ^ 24 - 120795957 / 2 ^ 27| = 3 / 2 ^ 27 by
      rw [abs_of_pos (by norm_num)]; norm_num] at h2
    obtain ⟨j, hj⟩ := CumStatFloat.multiple hf (by norm_num at h2 ⊢; linarith [h2.1])
    rw [hj] at h2 ⊢
    have j1 : (120795954 : ℝ) ≤ 8 * j := by norm_num at h2 ⊢; linarith [h2.1]
    have j2 : 8 * (j : ℝ) ≤ 120795960 := by norm_num at h2 ⊢; linarith [h2.2]
    have j1' : (120795954 : ℤ) ≤ 8 * j := by exact_mod_cast j1
    have j2' : 8 * j ≤ (120795960 : ℤ) := by exact_mod_cast j2
    rw [show j = 15099495 by omega]
    norm_num
  have hv' : fl (15099495 / 2 ^ 24) = 15099495 / 2 ^ 24 := by rw [← hv]; exact hs.self (hs _).1
  rw [hv, hv']
  refine ⟨((15099494 : ℤ) : ℝ) * (2 : ℝ) ^ (-24 : ℤ), tenth_float le_rfl (by norm_num), ?_⟩
  rw [abs_of_neg (by norm_num), abs_of_pos (by norm_num)]
  norm_num

/-- " -12.050;x" as a double. -/
example : |(getFloat round24 round53 0 " -12.050;x".toList).val - -(12 + 5 / 100)| ≤ 7 / 2 ^ 24 := by
  have h := (C111_fraction_partial (rounds_single.2 round24_nearest) (rounds_double.2 round53_nearest) (by norm_num) 0
    [' '] ['-'] "12".toList "050".toList ';' ['x'] (by decide) (by simp)
    (by decide) (by decide) (by decide) (by decide) (by decide) (by decide)).2.2
  have e : ([' '] ++ ['-'] ++ "12".toList ++ '.' :: "050".toList ++ ';' :: ['x']) = " -12.050;x".toList := rfl
  rw [e] at h
  have h1 : decValue "12".toList = 12 := by decide
  have h2 : (fracValue "050".toList : ℝ) = 5 / 100 := by
    have : decValue "050".toList = 50 := by decide
    have h3 : "050".toList.length = 3 := by decide
    rw [fracValue, this, h3]
    norm_num
  have h3 : "050".toList.length = 3 := by decide
  have h4 : "12".toList.length = 2 := by decide
  rw [h1, h2, h3, h4] at h
  simp only [if_true] at h
  norm_num at h ⊢
  exact h.trans (by norm_num)

/-- `2^53`, after which doubles leave out integers. -/
example : getFloat round24 round53 0 "9007199254740992\n".toList = ⟨9007199254740992, .noError, []⟩ := by
  have h := C111_integer (fs := round24) (rounds_double.2 round53_nearest) (by norm_num) 0 [] []
    "9007199254740992".toList '\n' [] (by decide) (by simp) (by decide) (by decide) (by decide) (by decide)
    (by have : decValue "9007199254740992".toList = 9007199254740992 := by decide
        rw [this]; norm_num)
  have e : decValue "9007199254740992".toList = 9007199254740992 := by decide
  rw [e] at h
  have e2 : ([] ++ [] ++ "9007199254740992".toList ++ '\n' :: [] : List Char) = "9007199254740992\n".toList := rfl
  rw [e2] at h
  rw [h]
  norm_num

end Ecl.Props
