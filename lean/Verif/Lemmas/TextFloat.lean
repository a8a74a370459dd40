import Verif.Model.TextFloat
import Verif.Lemmas.TextStream
import Verif.Lemmas.Rounding
import Mathlib.Tactic.NormNum
import Mathlib.Tactic.Linarith
import Mathlib.Tactic.FieldSimp
import Mathlib.Tactic.Positivity
import Mathlib.Data.Rat.Cast.Order
import Mathlib.Data.Real.Archimedean

/-! # Reading floating point numbers: the text and the rounding errors -/
set_option autoImplicit false
set_option linter.unusedSimpArgs false

namespace Ecl.TextFloat
open Ecl.TextStream Ecl.Spec

/-! ## The text -/

theorem getFloat_fraction (fs fl : ℝ → ℝ) (old : ℝ) (bl sg is qs : List Char) (e : Char) (s : List Char)
    (hbl : AllBlank bl) (hsg : sg = [] ∨ sg = ['+'] ∨ sg = ['-'])
    (hi : ∀ c ∈ is, c.isDigit = true) (hf : ∀ c ∈ qs, c.isDigit = true)
    (hne : is ≠ [] ∨ qs ≠ []) (hil : is.length ≤ 25) (hfl : qs.length ≤ 25)
    (he : e.isDigit = false) :
    getFloat fs fl old (bl ++ sg ++ is ++ '.' :: qs ++ e :: s) =
      ⟨(if sg = ['-'] then -1 else 1) * fracSum fs fl 1 (intSum fl 0 is) qs, .noError, s⟩ := by
  have key : ∀ (sign : ℝ) (c : Char) (cs : List Char), c :: cs = is ++ '.' :: (qs ++ e :: s) →
      finishFloat fs fl sign old c cs = ⟨sign * fracSum fs fl 1 (intSum fl 0 is) qs, .noError, s⟩ := by
    intro sign c cs hcs
    have hfirst : fracLoop c cs 25 = (is, '.', qs ++ e :: s) := by
      cases is with
      | nil =>
        simp only [List.nil_append, List.cons.injEq] at hcs
        obtain ⟨rfl, rfl⟩ := hcs
        exact fracLoop_none '.' _ 25 (by decide)
      | cons d is =>
        simp only [List.cons_append, List.cons.injEq] at hcs
        obtain ⟨rfl, rfl⟩ := hcs
        exact fracLoop_spec is c '.' _ 25 (hi c (by simp)) (fun x hx => hi x (by simp [hx]))
          (by decide) (by simp at hil; omega)
    unfold finishFloat
    rw [hfirst]
    simp only [if_true]
    cases qs with
    | nil =>
      simp only [List.nil_append]
      rw [fracLoop_none e s 25 he]
      have hisl : is.length ≠ 0 := by
        rcases hne with h | h
        · simpa using h
        · exact absurd rfl h
      simp [hisl, fracSum]
    | cons d qs =>
      simp only [List.cons_append]
      rw [fracLoop_spec qs d e s 25 (hf d (by simp)) (fun x hx => hf x (by simp [hx])) he
        (by simp at hfl; omega)]
      simp
  have hcons : ∃ c cs, c :: cs = is ++ '.' :: (qs ++ e :: s) ∧ ¬ IsBlank c ∧ c ≠ '-' ∧ c ≠ '+' := by
    cases is with
    | nil => exact ⟨'.', _, rfl, by rintro (h | h) <;> revert h <;> decide, by decide, by decide⟩
    | cons d is =>
      have hd := hi d (by simp)
      exact ⟨d, _, rfl, digit_not_blank hd, by rintro rfl; exact absurd hd (by decide),
        by rintro rfl; exact absurd hd (by decide)⟩
  obtain ⟨c, cs, hcs, hb, hm, hp⟩ := hcons
  have einp : bl ++ sg ++ is ++ '.' :: qs ++ e :: s = bl ++ (sg ++ c :: cs) := by
    rw [hcs]; simp
  rw [einp]
  unfold getFloat
  rw [skip_append _ _ hbl]
  rcases hsg with rfl | rfl | rfl
  · rw [List.nil_append, skip_cons _ _ hb]
    simp only
    rw [if_neg hm, if_neg hp, key 1 c cs hcs]
    simp
  · rw [List.singleton_append, skip_cons _ _ (by rintro (h | h) <;> revert h <;> decide)]
    simp only
    rw [if_neg (by decide), if_pos trivial, key 1 c cs hcs]
    simp
  · rw [List.singleton_append, skip_cons _ _ (by rintro (h | h) <;> revert h <;> decide)]
    simp only [if_true]
    rw [key (-1) c cs hcs]

theorem getFloat_integer (fs fl : ℝ → ℝ) (old : ℝ) (bl sg is : List Char) (e : Char) (s : List Char)
    (hbl : AllBlank bl) (hsg : sg = [] ∨ sg = ['+'] ∨ sg = ['-'])
    (hi : Digits is) (hil : is.length ≤ 25) (he : e.isDigit = false) (he' : e ≠ '.') :
    getFloat fs fl old (bl ++ sg ++ is ++ e :: s) =
      ⟨(if sg = ['-'] then -1 else 1) * intSum fl 0 is, .noError, s⟩ := by
  obtain ⟨hne, hi⟩ := hi
  obtain ⟨c, is, rfl⟩ := List.exists_cons_of_ne_nil hne
  have hc := hi c (by simp)
  have key : ∀ sign : ℝ, finishFloat fs fl sign old c (is ++ e :: s)
        = ⟨sign * intSum fl 0 (c :: is), .noError, s⟩ := by
    intro sign
    unfold finishFloat
    rw [fracLoop_spec is c e s 25 hc (fun x hx => hi x (by simp [hx])) he
      (by simp at hil; omega)]
    simp [he']
  have einp : bl ++ sg ++ (c :: is) ++ e :: s = bl ++ (sg ++ c :: (is ++ e :: s)) := by simp
  rw [einp]
  unfold getFloat
  rw [skip_append _ _ hbl]
  rcases hsg with rfl | rfl | rfl
  · rw [List.nil_append, skip_cons _ _ (digit_not_blank hc)]
    simp only
    rw [if_neg (by rintro rfl; exact absurd hc (by decide)),
      if_neg (by rintro rfl; exact absurd hc (by decide)), key]
    simp
  · rw [List.singleton_append, skip_cons _ _ (by rintro (h | h) <;> revert h <;> decide)]
    simp only
    rw [if_neg (by decide), if_pos trivial, key]
    simp
  · rw [List.singleton_append, skip_cons _ _ (by rintro (h | h) <;> revert h <;> decide)]
    simp only [if_true]
    rw [key]

/-! ## The values of digits -/

theorem decValue_append (ds : List Char) (c : Char) : decValue (ds ++ [c]) = 10 * decValue ds + digVal c := by
  unfold decValue
  rw [Nat.ofDigitChars_append, Nat.ofDigitChars_cons]
  simp [digVal]

theorem fracValue_nil : fracValue [] = 0 := by simp [fracValue, decValue]

theorem fracValue_cons (c : Char) (cs : List Char) :
    (fracValue (c :: cs) : ℝ) = (digVal c + (fracValue cs : ℝ)) / 10 := by
  have e : (decValue (c :: cs) : ℝ) = 10 ^ cs.length * (digVal c : ℝ) + decValue cs := by
    unfold decValue
    rw [Nat.ofDigitChars_cons, Nat.ofDigitChars_eq_ofDigitChars_zero]
    push_cast
    simp [digVal]
  unfold fracValue
  push_cast
  rw [e, List.length_cons, pow_succ]
  field_simp

theorem digVal_le {c : Char} (h : c.isDigit = true) : digVal c ≤ 9 := by
  simp only [Char.isDigit, Bool.and_eq_true, decide_eq_true_eq] at h
  have h2 : c.val.toNat ≤ 57 := h.2
  have : c.toNat ≤ 57 := h2
  unfold digVal
  have : '0'.toNat = 48 := rfl
  omega

/-! ## Rounding -/

section
variable {p : ℕ} {fs fl : ℝ → ℝ} (hs : Rounds 24 fs) (hfl : Rounds p fl) (hp : 24 ≤ p)

include hfl in
theorem rel (hp : 1 ≤ p) (y : ℝ) : |fl y - y| ≤ |y| * (1 / 2 ^ p) := by
  have := hfl.relative hp y
  rwa [div_eq_mul_one_div] at this

include hp in
theorem unit_small : (1 : ℝ) / 2 ^ p ≤ 1 / 2 ^ 24 :=
  one_div_le_one_div_of_le (by norm_num) (pow_le_pow_right₀ (by norm_num) hp)

include hfl in
/-- Up to `2^p` the integral part is exact. -/
theorem intSum_exact (hp : 1 ≤ p) (ds : List Char) (h : decValue ds ≤ 2 ^ p) : intSum fl 0 ds = decValue ds := by
  have key : ∀ (cs ds : List Char), decValue (ds ++ cs) ≤ 2 ^ p → intSum fl (decValue ds) cs = decValue (ds ++ cs) := by
    intro cs
    induction cs with
    | nil => intro ds _; simp [intSum]
    | cons c cs ih =>
      intro ds h
      have e : ds ++ c :: cs = (ds ++ [c]) ++ cs := by simp
      rw [e] at h ⊢
      have hle : decValue (ds ++ [c]) ≤ 2 ^ p := by
        refine le_trans ?_ h
        clear ih h e
        induction cs using List.reverseRecOn with
        | nil => simp
        | append_singleton cs x ih2 => rw [← List.append_assoc, decValue_append _ x]; omega
      rw [← ih _ h, intSum]
      congr 1
      have h10 : 10 * decValue ds ≤ 2 ^ p := by rw [decValue_append] at hle; omega
      have e1 : fl (10 * (decValue ds : ℝ)) = 10 * decValue ds := by
        have := hfl.self (isFloat_nat (p := p) hp h10)
        push_cast at this
        exact this
      have e2 := hfl.self (isFloat_nat (p := p) hp hle)
      rw [e1, ← e2, decValue_append]
      push_cast
      rfl
  have := key ds [] (by simpa using h)
  simpa [decValue] using this

include hfl hp in
/-- The relative error of the integral part. -/
theorem intSum_error (ds : List Char) (hlen : ds.length ≤ 25) :
    |intSum fl 0 ds - decValue ds| ≤ (decValue ds : ℝ) * (3 * ds.length * (1 / 2 ^ p)) := by
  have hu := unit_small hp
  have hu0 : (0 : ℝ) < 1 / 2 ^ p := by positivity
  have r := rel hfl (by omega)
  have key : ∀ (cs ds : List Char) (n : ℝ), (ds ++ cs).length ≤ 25 →
      |n - decValue ds| ≤ (decValue ds : ℝ) * (3 * ds.length * (1 / 2 ^ p)) →
      |intSum fl n cs - decValue (ds ++ cs)| ≤ (decValue (ds ++ cs) : ℝ) * (3 * (ds ++ cs).length * (1 / 2 ^ p)) := by
    intro cs
    induction cs with
    | nil => intro ds n _ h; simpa [intSum] using h
    | cons c cs ih =>
      intro ds n hl h
      have e : ds ++ c :: cs = (ds ++ [c]) ++ cs := by simp
      rw [e] at hl ⊢
      rw [intSum]
      refine ih _ _ hl ?_
      have hk : (ds.length : ℝ) ≤ 25 := by
        have : ds.length ≤ 25 := by simp at hl; omega
        exact_mod_cast this
      have hk0 : (0 : ℝ) ≤ ds.length := by positivity
      rw [decValue_append, List.length_append, List.length_singleton]
      push_cast
      have hv : (0 : ℝ) ≤ decValue ds := by positivity
      have hd : (0 : ℝ) ≤ digVal c := by positivity
      have r1 := r (10 * n)
      have r2 := r (fl (10 * n) + digVal c)
      generalize fl (fl (10 * n) + digVal c) = b at *
      generalize fl (10 * n) = a at *
      generalize (decValue ds : ℝ) = v at *
      generalize (digVal c : ℝ) = d at *
      generalize (ds.length : ℝ) = k at *
      generalize (1 : ℝ) / 2 ^ p = u at *
      have hku : k * u ≤ 25 * (1 / 2 ^ 24) := mul_le_mul hk hu hu0.le (by norm_num)
      have hku0 : 0 ≤ k * u := by positivity
      norm_num at hku hu
      have hn : |n| ≤ v * 1.001 := by
        have h1 := abs_add_le (n - v) v
        rw [sub_add_cancel, abs_of_nonneg hv] at h1
        have : v * (3 * k * u) ≤ v * 0.001 := mul_le_mul_of_nonneg_left (by linarith) hv
        linarith
      have r1' : |a - 10 * n| ≤ v * 10.01 * u := by
        refine r1.trans (mul_le_mul_of_nonneg_right ?_ hu0.le)
        rw [abs_mul, abs_of_pos (by norm_num : (0 : ℝ) < 10)]
        linarith
      have ha : |a + d| ≤ (10 * v + d) * 1.01 := by
        have h1 := abs_add_le (a - 10 * n) (10 * n + d)
        rw [show a - 10 * n + (10 * n + d) = a + d by ring] at h1
        have h2 := abs_add_le (10 * n) d
        rw [abs_mul, abs_of_pos (by norm_num : (0 : ℝ) < 10), abs_of_nonneg hd] at h2
        have h3 : v * 10.01 * u ≤ v * 10.01 * (1 / 16777216) := mul_le_mul_of_nonneg_left hu (by positivity)
        norm_num at h3 r1' hn ⊢
        linarith
      have r2' : |b - (a + d)| ≤ (10 * v + d) * 1.01 * u := r2.trans (mul_le_mul_of_nonneg_right ha hu0.le)
      have e1 : b - (10 * v + d) = (b - (a + d)) + (a - 10 * n) + 10 * (n - v) := by ring
      rw [e1]
      refine (abs_add_le _ _).trans ?_
      have h4 := abs_add_le (b - (a + d)) (a - 10 * n)
      rw [abs_mul, abs_of_pos (by norm_num : (0 : ℝ) < 10)]
      have h5 : (10 * v + d) * (3 * (k + 1) * u) = 10 * (v * (3 * k * u)) + 30 * (v * u) + 3 * (d * u) + 3 * (d * (k * u)) := by
        ring
      rw [h5]
      have h6 : (10 * v + d) * 1.01 * u = 10.1 * (v * u) + 1.01 * (d * u) := by ring
      rw [h6] at r2'
      have h7 : v * 10.01 * u = 10.01 * (v * u) := by ring
      rw [h7] at r1'
      have p1 : 0 ≤ v * u := by positivity
      have p2 : 0 ≤ d * u := by positivity
      have p3 : 0 ≤ d * (k * u) := by positivity
      linarith
  have := key ds [] 0 (by simpa using hlen) (by simp [decValue])
  simpa using this

include hs in
/-- One decimal place further: `q` is the place. -/
theorem mult_step {m q j : ℝ} (hq : 0 < q) (hj : 0 ≤ j) (hj' : j ≤ 25) (hm : |m - 10 * q| ≤ 3 * j * (1 / 2 ^ 24) * (10 * q)) :
    |fs (m * tenth) - q| ≤ 3 * (j + 1) * (1 / 2 ^ 24) * q := by
  have r := rel hs (by norm_num) (m * tenth)
  have hc : |tenth - 1 / 10| ≤ 1 / 10 * (1 / 2 ^ 24) := by
    unfold tenth
    rw [abs_le]
    constructor <;> norm_num
  have hc0 : 0 ≤ tenth := by unfold tenth; positivity
  have hc1 : tenth ≤ 0.1001 := by unfold tenth; norm_num
  have e1 : m * tenth - q = (m - 10 * q) * tenth + 10 * q * (tenth - 1 / 10) := by ring
  have h1 : |m * tenth - q| ≤ (3 * j * 1.001 + 1) * (1 / 2 ^ 24) * q := by
    rw [e1]
    refine (abs_add_le _ _).trans ?_
    rw [abs_mul, abs_mul, abs_of_nonneg hc0, abs_of_pos (by linarith : 0 < 10 * q)]
    have a1 := mul_le_mul hm hc1 hc0 (by positivity)
    have a2 := mul_le_mul_of_nonneg_left hc (by linarith : 0 ≤ 10 * q)
    refine (add_le_add a1 a2).trans (le_of_eq ?_)
    ring
  have h2 : |m * tenth| ≤ 1.01 * q := by
    have h3 := abs_add_le (m * tenth - q) q
    rw [sub_add_cancel, abs_of_pos hq] at h3
    have h4 : (3 * j * 1.001 + 1) * (1 / 2 ^ 24) * q ≤ 0.01 * q := mul_le_mul_of_nonneg_right (by norm_num; linarith) hq.le
    linarith
  have h3 : |fs (m * tenth) - m * tenth| ≤ 1.01 * q * (1 / 2 ^ 24) := r.trans (mul_le_mul_of_nonneg_right h2 (by norm_num))
  have e2 : fs (m * tenth) - q = (fs (m * tenth) - m * tenth) + (m * tenth - q) := by ring
  rw [e2]
  refine (abs_add_le _ _).trans ((add_le_add h3 h1).trans ?_)
  have : 1.01 * q * (1 / 2 ^ 24) + (3 * j * 1.001 + 1) * (1 / 2 ^ 24) * q = (3 * j * 1.001 + 2.01) * (1 / 2 ^ 24 * q) := by ring
  rw [this, mul_assoc (3 * (j + 1))]
  refine mul_le_mul_of_nonneg_right ?_ (by positivity)
  linarith

include hs in
/-- The digit at this place. -/
theorem digit_step {m q j d : ℝ} (hq : 0 < q) (hj : 0 ≤ j) (hj' : j ≤ 25) (hm : |m - q| ≤ 3 * (j + 1) * (1 / 2 ^ 24) * q)
    (hd : 0 ≤ d) (hd' : d ≤ 9) : |fs (m * d) - d * q| ≤ 9 * q * (3 * j + 5) * (1 / 2 ^ 24) := by
  have r := rel hs (by norm_num) (m * d)
  have h1 : |m * d - d * q| ≤ 9 * q * (3 * (j + 1)) * (1 / 2 ^ 24) := by
    rw [show m * d - d * q = d * (m - q) by ring, abs_mul, abs_of_nonneg hd]
    refine (mul_le_mul hd' hm (abs_nonneg _) (by norm_num)).trans (le_of_eq ?_)
    ring
  have h2 : |m * d| ≤ 9 * q * 2 := by
    have h3 := abs_add_le (m * d - d * q) (d * q)
    rw [sub_add_cancel, abs_of_nonneg (mul_nonneg hd hq.le)] at h3
    have h4 : 9 * q * (3 * (j + 1)) * (1 / 2 ^ 24) ≤ 9 * q * 1 := by
      rw [mul_assoc (9 * q)]
      exact mul_le_mul_of_nonneg_left (by norm_num; linarith) (by positivity)
    have h5 : d * q ≤ 9 * q := mul_le_mul_of_nonneg_right hd' hq.le
    linarith
  have h3 : |fs (m * d) - m * d| ≤ 9 * q * 2 * (1 / 2 ^ 24) := r.trans (mul_le_mul_of_nonneg_right h2 (by norm_num))
  rw [show fs (m * d) - d * q = (fs (m * d) - m * d) + (m * d - d * q) by ring]
  refine (abs_add_le _ _).trans ((add_le_add h3 h1).trans (le_of_eq ?_))
  ring

include hs hfl hp in
theorem fracSum_error {X : ℝ} (hX : 1 ≤ X) (qs : List Char) : ∀ (j : ℕ) (m n e A G : ℝ), j + qs.length ≤ 25 →
    (∀ c ∈ qs, c.isDigit = true) → |m - 10 * (1 / 10) ^ (j + 1)| ≤ 3 * j * (1 / 2 ^ 24) * (10 * (1 / 10) ^ (j + 1)) →
    0 ≤ e → e + 10 * (1 / 10) ^ (j + 1) ≤ X → 0 ≤ A → A + 2 * qs.length ≤ 125 → 0 ≤ G →
    G + (3 * j + 6) * (10 * (1 / 10) ^ (j + 1)) ≤ 6 → |n - e| ≤ A * (X * (1 / 2 ^ p)) + G * (1 / 2 ^ 24) →
    |fracSum fs fl m n qs - (e + 10 * (1 / 10) ^ (j + 1) * fracValue qs)| ≤
      (A + 2 * qs.length) * (X * (1 / 2 ^ p)) + 6 * (1 / 2 ^ 24) := by
  have hu := unit_small hp
  have hu0 : (0 : ℝ) < 1 / 2 ^ p := by positivity
  have hXu : 0 ≤ X * (1 / 2 ^ p) := by positivity
  induction qs with
  | nil =>
    intro j m n e A G _ _ _ _ _ _ _ _ hG hn
    rw [fracSum, fracValue_nil]
    have hq : (0 : ℝ) ≤ (3 * j + 6) * (10 * (1 / 10) ^ (j + 1)) := by positivity
    simp only [Rat.cast_zero, mul_zero, add_zero, List.length_nil, Nat.cast_zero]
    have : G * (1 / 2 ^ 24) ≤ 6 * (1 / 2 ^ 24) := mul_le_mul_of_nonneg_right (by linarith) (by norm_num)
    linarith
  | cons c cs ih =>
    intro j m n e A G hl hdig hm he heX hA hA' hG hG' hn
    rw [List.length_cons] at hl hA'
    have hq : (0 : ℝ) < (1 / 10) ^ (j + 1) := by positivity
    have hj' : (j : ℝ) ≤ 25 := by
      have : j ≤ 25 := by omega
      exact_mod_cast this
    have hj0 : (0 : ℝ) ≤ j := by positivity
    have hd0 : (0 : ℝ) ≤ digVal c := by positivity
    have hd9 : (digVal c : ℝ) ≤ 9 := by exact_mod_cast digVal_le (hdig c (by simp))
    have s1 := mult_step hs hq hj0 hj' hm
    have s2 := digit_step hs hq hj0 hj' s1 hd0 hd9
    have ej : (10 : ℝ) * (1 / 10) ^ (j + 1 + 1) = (1 / 10) ^ (j + 1) := by rw [pow_succ _ (j + 1)]; ring
    have hl' : ((cs.length + 1 : ℕ) : ℝ) = cs.length + 1 := by push_cast; ring
    rw [hl'] at hA'
    have hcs : (0 : ℝ) ≤ cs.length := by positivity
    rw [fracSum]
    have r := rel hfl (by omega) (n + fs (fs (m * tenth) * digVal c))
    have tot := ih (j + 1) (fs (m * tenth)) (fl (n + fs (fs (m * tenth) * digVal c)))
      (e + digVal c * (1 / 10) ^ (j + 1)) (A + 2) (G + 9 * (1 / 10) ^ (j + 1) * (3 * j + 5))
      (by omega) (fun x hx => hdig x (by simp [hx]))
    rw [ej] at tot
    have goal := tot (by push_cast; exact s1) (by positivity) (by
        have := mul_le_mul_of_nonneg_right hd9 hq.le
        linarith) (by linarith) (by linarith) (by positivity) (by
        push_cast
        have : (3 * (j : ℝ) + 6) * (10 * (1 / 10) ^ (j + 1)) - (9 * (1 / 10) ^ (j + 1) * (3 * j + 5) +
          (3 * (j + 1) + 6) * (1 / 10) ^ (j + 1)) = 6 * (1 / 10) ^ (j + 1) := by ring
        linarith) ?_
    · rw [fracValue_cons, List.length_cons, hl']
      have e1 : e + 10 * (1 / 10) ^ (j + 1) * ((digVal c + (fracValue cs : ℝ)) / 10) =
          e + digVal c * (1 / 10) ^ (j + 1) + (1 / 10) ^ (j + 1) * (fracValue cs : ℝ) := by ring
      rw [e1]
      refine goal.trans (le_of_eq ?_)
      ring
    · clear tot ih
      generalize fs (fs (m * tenth) * digVal c) = t at *
      generalize fl (n + t) = b at *
      generalize (digVal c : ℝ) = d at *
      generalize ((1 : ℝ) / 10) ^ (j + 1) = q at *
      have hXw : X * (1 / 2 ^ p) ≤ X * (1 / 2 ^ 24) := mul_le_mul_of_nonneg_left hu (by linarith)
      have hdq : d * q ≤ 9 * q := mul_le_mul_of_nonneg_right hd9 hq.le
      have hA5 : A ≤ 125 := by linarith
      have hjq : (0 : ℝ) ≤ (3 * j + 6) * (10 * q) := by positivity
      have hG6 : G ≤ 6 := by linarith
      have b1 : |n + t| ≤ 2 * X := by
        have h1 : |n + t| ≤ |n - e| + |t - d * q| + (e + d * q) := by
          have := abs_add_three (n - e) (t - d * q) (e + d * q)
          rw [show n - e + (t - d * q) + (e + d * q) = n + t by ring, abs_of_nonneg (by positivity : 0 ≤ e + d * q)] at this
          exact this
        have h2 : A * (X * (1 / 2 ^ p)) ≤ 125 * (X * (1 / 2 ^ 24)) := mul_le_mul hA5 hXw hXu (by norm_num)
        have h3 : 9 * q * (3 * j + 5) * (1 / 2 ^ 24) ≤ 720 * q * (1 / 2 ^ 24) := by
          refine mul_le_mul_of_nonneg_right ?_ (by norm_num)
          nlinarith
        have h4 : q ≤ X := by linarith
        norm_num at h2 h3 hn s2 ⊢
        linarith
      have b2 : |b - (n + t)| ≤ 2 * (X * (1 / 2 ^ p)) := by
        refine r.trans ((mul_le_mul_of_nonneg_right b1 hu0.le).trans (le_of_eq ?_))
        ring
      have := abs_add_three (b - (n + t)) (n - e) (t - d * q)
      rw [show b - (n + t) + (n - e) + (t - d * q) = b - (e + d * q) by ring] at this
      refine this.trans ((add_le_add (add_le_add b2 hn) s2).trans (le_of_eq ?_))
      ring

end

end Ecl.TextFloat
