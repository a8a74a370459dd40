import Verif.Model.InterpolationFloat
import Verif.Lemmas.PolynomialFloat
import Mathlib.Tactic.FieldSimp

/-! # Errors of sums of products with rounding, relative to the sum of absolute values -/
set_option autoImplicit false
set_option linter.unusedSimpArgs false

namespace Ecl.PolyFloat
open Ecl.Spec
open Ecl.Poly (Coeffs ofList shifted)

/-- `a'` stands for `a`, which is at most `A`, after `k` roundings. -/
def Close (p k : ℕ) (a' a A : ℝ) : Prop := |a' - a| ≤ ((1 + 1 / 2 ^ p) ^ k - 1) * A ∧ |a| ≤ A

variable {p : ℕ} {fl : ℝ → ℝ}

theorem one_le_u (p : ℕ) : (1 : ℝ) ≤ 1 + 1 / 2 ^ p := by
  have : (0 : ℝ) < 1 / 2 ^ p := by positivity
  linarith

theorem Close.exact (a : ℝ) : Close p 0 a a |a| := by simp [Close]

theorem Close.nonneg {k : ℕ} {a' a A : ℝ} (h : Close p k a' a A) : 0 ≤ A := (abs_nonneg a).trans h.2

theorem Close.mono {k l : ℕ} {a' a A B : ℝ} (h : Close p k a' a A) (hkl : k ≤ l) (hAB : A ≤ B) :
    Close p l a' a B := by
  have h1 : (1 + 1 / 2 ^ p : ℝ) ^ k ≤ (1 + 1 / 2 ^ p) ^ l := pow_le_pow_right₀ (one_le_u p) hkl
  have h2 : (1 : ℝ) ≤ (1 + 1 / 2 ^ p) ^ k := one_le_pow₀ (one_le_u p)
  refine ⟨h.1.trans (mul_le_mul (by linarith) hAB h.nonneg (by linarith)), h.2.trans hAB⟩

theorem Close.more {k : ℕ} {a' a A : ℝ} (h : Close p k a' a A) (l : ℕ) (hkl : k ≤ l) : Close p l a' a A :=
  h.mono hkl le_rfl

theorem Close.round (hfl : Rounds p fl) (hp : 1 ≤ p) {k : ℕ} {a' a A : ℝ} (h : Close p k a' a A) :
    Close p (k + 1) (fl a') a A := by
  refine ⟨?_, h.2⟩
  rw [pow_succ]
  exact round_step hfl hp h.2 h.1

theorem Close.add {k : ℕ} {a' a A b' b B : ℝ} (h : Close p k a' a A) (g : Close p k b' b B) :
    Close p k (a' + b') (a + b) (A + B) := by
  refine ⟨?_, (abs_add_le _ _).trans (add_le_add h.2 g.2)⟩
  have e : a' + b' - (a + b) = (a' - a) + (b' - b) := by ring
  rw [e, mul_add]
  exact (abs_add_le _ _).trans (add_le_add h.1 g.1)

theorem Close.neg {k : ℕ} {a' a A : ℝ} (h : Close p k a' a A) : Close p k (-a') (-a) A := by
  refine ⟨?_, by rw [abs_neg]; exact h.2⟩
  have e : -a' - -a = -(a' - a) := by ring
  rw [e, abs_neg]
  exact h.1

theorem Close.sub {k : ℕ} {a' a A b' b B : ℝ} (h : Close p k a' a A) (g : Close p k b' b B) :
    Close p k (a' - b') (a - b) (A + B) := by
  rw [sub_eq_add_neg, sub_eq_add_neg]
  exact h.add g.neg

theorem Close.mul {k l : ℕ} {a' a A b' b B : ℝ} (h : Close p k a' a A) (g : Close p l b' b B) :
    Close p (k + l) (a' * b') (a * b) (A * B) := by
  refine ⟨?_, by rw [abs_mul]; exact mul_le_mul h.2 g.2 (abs_nonneg _) h.nonneg⟩
  have e : a' * b' - a * b = (a' - a) * b + a' * (b' - b) := by ring
  have hA := h.nonneg
  have hB := g.nonneg
  have hk : (1 : ℝ) ≤ (1 + 1 / 2 ^ p) ^ k := one_le_pow₀ (one_le_u p)
  have hl : (1 : ℝ) ≤ (1 + 1 / 2 ^ p) ^ l := one_le_pow₀ (one_le_u p)
  have h1 : |a'| ≤ (1 + 1 / 2 ^ p) ^ k * A := by
    have := abs_sub_abs_le_abs_sub a' a
    have := h.1
    have := h.2
    linarith
  have h3 : |(a' - a) * b| ≤ ((1 + 1 / 2 ^ p) ^ k - 1) * A * B := by
    rw [abs_mul]
    exact mul_le_mul h.1 g.2 (abs_nonneg _) (mul_nonneg (by linarith) hA)
  have h4 : |a' * (b' - b)| ≤ (1 + 1 / 2 ^ p) ^ k * A * (((1 + 1 / 2 ^ p) ^ l - 1) * B) := by
    rw [abs_mul]
    exact mul_le_mul h1 g.1 (abs_nonneg _) (by positivity)
  rw [e, pow_add]
  refine (abs_add_le _ _).trans ((add_le_add h3 h4).trans (le_of_eq ?_))
  ring

/-- Division by a number with a small relative error. -/
theorem Close.inv {l : ℕ} {b' b : ℝ} (h : Close p l b' b |b|) (hb : b ≠ 0)
    (hl : (1 + 1 / 2 ^ p : ℝ) ^ l ≤ 3 / 2) : Close p (2 * l) (1 / b') (1 / b) (1 / |b|) := by
  refine ⟨?_, by rw [abs_div, abs_one]⟩
  have h1 : (1 : ℝ) ≤ (1 + 1 / 2 ^ p) ^ l := one_le_pow₀ (one_le_u p)
  have hpos : 0 < |b| := abs_pos.2 hb
  have h2 := h.1
  rw [mul_comm 2 l, pow_mul]
  generalize (1 + 1 / 2 ^ p : ℝ) ^ l = t at *
  have h3 : (2 - t) * |b| ≤ |b'| := by
    have := abs_sub_abs_le_abs_sub b b'
    rw [abs_sub_comm] at this
    linarith
  have h4 : 0 < |b'| := lt_of_lt_of_le (mul_pos (by linarith) hpos) h3
  have hb' : b' ≠ 0 := abs_pos.1 h4
  have e : 1 / b' - 1 / b = (b - b') / (b' * b) := by field_simp
  rw [e, abs_div, abs_mul, abs_sub_comm, div_le_iff₀ (mul_pos h4 hpos)]
  have e2 : (t ^ 2 - 1) * (1 / |b|) * (|b'| * |b|) = (t ^ 2 - 1) * |b'| := by field_simp
  rw [e2]
  refine h2.trans ?_
  have h5 : (t ^ 2 - 1) * ((2 - t) * |b|) ≤ (t ^ 2 - 1) * |b'| := mul_le_mul_of_nonneg_left h3 (by nlinarith)
  refine le_trans ?_ h5
  have h6 : 0 ≤ (t - 1) * (1 + t - t ^ 2) := mul_nonneg (by linarith) (by nlinarith)
  nlinarith [mul_nonneg h6 hpos.le]

theorem Close.div {k l : ℕ} {a' a A b' b : ℝ} (h : Close p k a' a A) (g : Close p l b' b |b|) (hb : b ≠ 0)
    (hl : (1 + 1 / 2 ^ p : ℝ) ^ l ≤ 3 / 2) : Close p (k + 2 * l) (a' / b') (a / b) (A / |b|) := by
  have := h.mul (g.inv hb hl)
  simpa only [mul_one_div] using this

theorem Close.mulAbs {k l : ℕ} {a' a b' b : ℝ} (h : Close p k a' a |a|) (g : Close p l b' b |b|) :
    Close p (k + l) (a' * b') (a * b) |a * b| := by
  rw [abs_mul]
  exact h.mul g

/-- A sum, term by term. -/
theorem Close.sum {k : ℕ} {ι : Type} (S : Finset ι) {f' f F : ι → ℝ} (h : ∀ i ∈ S, Close p k (f' i) (f i) (F i)) :
    Close p k (∑ i ∈ S, f' i) (∑ i ∈ S, f i) (∑ i ∈ S, F i) := by
  classical
  induction S using Finset.induction_on with
  | empty => simp [Close]
  | insert a S ha ih =>
    rw [Finset.sum_insert ha, Finset.sum_insert ha, Finset.sum_insert ha]
    exact (h a (Finset.mem_insert_self a S)).add (ih fun i hi => h i (Finset.mem_insert_of_mem hi))

/-! ## Evaluation -/

theorem evalLoop_close (hfl : Rounds p fl) (hp : 1 ≤ p) {c' c C : Coeffs ℝ} {x : ℝ} {n k : ℕ}
    (hc : ∀ i ≤ n, Close p k (c' i) (c i) (C i)) : ∀ (left i : ℕ) (tmp value : ℝ), i + 1 + left = n + 1 →
    Close p i tmp (x ^ (i + 1)) (|x| ^ (i + 1)) →
    Close p (2 * i + k) value (∑ j ∈ Finset.range (i + 1), c j * x ^ j)
      (∑ j ∈ Finset.range (i + 1), C j * |x| ^ j) →
    Close p (2 * n + k) (evalLoop fl c' x left (i + 1) tmp value) (∑ j ∈ Finset.range (n + 1), c j * x ^ j)
      (∑ j ∈ Finset.range (n + 1), C j * |x| ^ j) := by
  intro left
  induction left with
  | zero =>
    intro i tmp value hi _ hv
    have : i = n := by omega
    subst this
    exact hv
  | succ left ih =>
    intro i tmp value hi ht hv
    unfold evalLoop
    refine ih (i + 1) _ _ (by omega) ?_ ?_
    · have := (ht.mul (Close.exact (p := p) x)).round hfl hp
      rw [← pow_succ, ← pow_succ] at this
      exact this
    · have t := (((hc (i + 1) (by omega)).mul ht).round hfl hp).more (2 * i + 1 + k) (by omega)
      have := ((hv.more (2 * i + 1 + k) (by omega)).add t).round hfl hp
      rw [Finset.sum_range_succ _ (i + 1), Finset.sum_range_succ _ (i + 1)]
      exact this.more _ (by omega)

theorem eval_close (hfl : Rounds p fl) (hp : 1 ≤ p) {c' c C : Coeffs ℝ} (x : ℝ) {n k : ℕ}
    (hc : ∀ i ≤ n, Close p k (c' i) (c i) (C i)) :
    Close p (2 * n + k) (eval fl n c' x) ((toPoly n c).eval x) ((toPoly n C).eval |x|) := by
  rw [Poly.eval_toPoly, Poly.eval_eq_sum, Poly.eval_toPoly, Poly.eval_eq_sum]
  unfold eval
  refine evalLoop_close hfl hp hc n 0 x (c' 0) (by omega) ?_ ?_
  · simpa using Close.exact (p := p) x
  · simpa using hc 0 (by omega)

theorem derivative_close (hfl : Rounds p fl) (hp : 1 ≤ p) {c' c C : Coeffs ℝ} {n k : ℕ}
    (hc : ∀ i ≤ n, Close p k (c' i) (c i) (C i)) (i : ℕ) :
    Close p (k + 1) (derivative fl n c' i) (Poly.derivative n c i) (Poly.derivative n C i) := by
  unfold derivative Poly.derivative
  split
  · rename_i h
    have := (((Close.exact (p := p) ((i + 1 : ℕ) : ℝ)).mul (hc (i + 1) (by omega))).round hfl hp)
    rw [abs_of_nonneg (by positivity)] at this
    exact this.more _ (by omega)
  · simp [Close]

theorem derivativeAt_close (hfl : Rounds p fl) (hp : 1 ≤ p) {c' c C : Coeffs ℝ} (x : ℝ) {n k : ℕ}
    (hc : ∀ i ≤ n, Close p k (c' i) (c i) (C i)) :
    Close p (2 * n + k) (derivativeAt fl n c' x) ((toPoly n c).derivative.eval x)
      ((toPoly n C).derivative.eval |x|) := by
  rw [← Poly.derivativeAt_eq, ← Poly.derivativeAt_eq]
  unfold derivativeAt Poly.derivativeAt
  split
  · rw [← Poly.eval_toPoly, ← Poly.eval_toPoly]
    exact (eval_close hfl hp x fun i _ => derivative_close hfl hp hc i).more _ (by omega)
  · simp only [Close, sub_self, abs_zero, mul_zero, le_refl, and_self]

theorem dderivativeAt_close (hfl : Rounds p fl) (hp : 1 ≤ p) {c' c C : Coeffs ℝ} (x : ℝ) {n k : ℕ}
    (hc : ∀ i ≤ n, Close p k (c' i) (c i) (C i)) :
    Close p (2 * n + k) (dderivativeAt fl n c' x) ((toPoly n c).derivative.derivative.eval x)
      ((toPoly n C).derivative.derivative.eval |x|) := by
  rw [← Poly.dderivativeAt_eq, ← Poly.dderivativeAt_eq]
  unfold dderivativeAt Poly.dderivativeAt
  split
  · rw [← Poly.eval_toPoly, ← Poly.eval_toPoly]
    exact (eval_close hfl hp x fun i _ => derivative_close hfl hp
      (fun i _ => derivative_close hfl hp hc i) i).more _ (by omega)
  · simp only [Close, sub_self, abs_zero, mul_zero, le_refl, and_self]

/-! ## Shifting -/

/-- The inner loop: `q` powers are in `tmp`, and `d` roundings in the entry so far. -/
theorem shiftInner_close (hfl : Rounds p fl) (hp : 1 ≤ p) (s : ℝ) (i n k : ℕ) {c C : Coeffs ℝ} :
    ∀ (bs : List Int) (j q : ℕ) (tmp a A : ℝ) (c' : Coeffs ℝ), i < j → (∀ b ∈ bs, 0 ≤ b) → j + bs.length ≤ n + 1 →
    (∀ m, i < m → m ≤ n → Close p k (c' m) (c m) (C m)) →
    Close p q tmp ((-s) ^ (q + 1)) (|s| ^ (q + 1)) →
    Close p (k + q + 2) (c' i) a A →
    (∀ m, m ≠ i → shiftInner fl s i bs j tmp c' m = c' m) ∧
    Close p (k + q + bs.length + 2) (shiftInner fl s i bs j tmp c' i)
      (a + ∑ m ∈ Finset.range bs.length, ((bs.getD m 0 : Int) : ℝ) * (-s) ^ (q + 1 + m) * c (j + m))
      (A + ∑ m ∈ Finset.range bs.length, ((bs.getD m 0 : Int) : ℝ) * |s| ^ (q + 1 + m) * C (j + m)) := by
  intro bs
  induction bs with
  | nil =>
    intro j q tmp a A c' _ _ _ _ _ ha
    simpa [shiftInner] using ha
  | cons b bs ih =>
    intro j q tmp a A c' hj hb hlen hc ht ha
    rw [List.length_cons] at hlen
    unfold shiftInner
    have hb0 : (0 : ℝ) ≤ (b : ℝ) := by exact_mod_cast hb b (by simp)
    have t1 := ((Close.exact (p := p) (b : ℝ)).mul ht).round hfl hp
    rw [abs_of_nonneg hb0] at t1
    have t2 := ((t1.mul (hc j hj (by omega))).round hfl hp).more (k + q + 2) (by omega)
    have t3 := (ha.add t2).round hfl hp
    have t4 := (ht.mul (Close.exact (p := p) (-s))).round hfl hp
    rw [abs_neg, ← pow_succ, ← pow_succ] at t4
    obtain ⟨h1, h2⟩ := ih (j + 1) (q + 1) _ _ _ (Function.update c' i (fl (c' i + fl (fl ((b : ℝ) * tmp) * c' j))))
      (by omega) (fun d hd => hb d (by simp [hd])) (by omega)
      (fun m hm hmn => by rw [Function.update_of_ne (by omega)]; exact hc m hm hmn) (t4.more _ (by omega))
      (by rw [Function.update_self]; exact t3.more _ (by omega))
    refine ⟨fun m hm => ?_, ?_⟩
    · rw [h1 m hm, Function.update_of_ne hm]
    · rw [List.length_cons, Finset.sum_range_succ', Finset.sum_range_succ']
      have e1 : ∀ m, j + 1 + m = j + (m + 1) := fun m => by omega
      have e2 : ∀ m, q + 1 + 1 + m = q + 1 + (m + 1) := fun m => by omega
      simp only [e1, e2, List.getD_cons_succ, List.getD_cons_zero, add_zero] at h2 ⊢
      have h3 := h2.more (k + q + (bs.length + 1) + 2) (by omega)
      have f1 : ∀ u v w : ℝ, u + (v + w) = u + w + v := fun u v w => by ring
      rw [f1, f1]
      exact h3

theorem shiftInner_row_close (hfl : Rounds p fl) (hp : 1 ≤ p) {n i : ℕ} (hi : i < n) (s : ℝ) {k : ℕ}
    {c' c C : Coeffs ℝ} (hc : ∀ m, i ≤ m → m ≤ n → Close p k (c' m) (c m) (C m)) :
    (∀ m, m ≠ i → shiftInner fl s i ((Pascal.row n i (Pascal.rowsUpto n (n + 1))).drop 1) (i + 1) (-s) c' m = c' m) ∧
    Close p (k + n + 2) (shiftInner fl s i ((Pascal.row n i (Pascal.rowsUpto n (n + 1))).drop 1) (i + 1) (-s) c' i)
      (shifted n s c i) (shifted n (-|s|) C i) := by
  have hl : ((Pascal.row n i (Pascal.rowsUpto n (n + 1))).drop 1).length = n - i := by
    rw [List.length_drop, Pascal.row_rowsUpto (by omega), Pascal.length_rowPart]; omega
  have hget : ∀ m, m < n - i → ((Pascal.row n i (Pascal.rowsUpto n (n + 1))).drop 1).getD m 0 = Pascal.bin i (m + 1) :=
    fun m hm => Poly.row_drop_getD (by omega) (by omega)
  have hpos : ∀ b ∈ (Pascal.row n i (Pascal.rowsUpto n (n + 1))).drop 1, 0 ≤ b := by
    intro b hb
    obtain ⟨m, hm, rfl⟩ := List.getElem_of_mem hb
    have := hget m (by omega)
    rw [List.getD_eq_getElem?_getD, List.getElem?_eq_getElem hm, Option.getD_some] at this
    rw [this]
    unfold Pascal.bin
    positivity
  obtain ⟨h1, h2⟩ := shiftInner_close hfl hp s i n k (c := c) (C := C) _ (i + 1) 0 (-s) (c i) (C i) c' (by omega) hpos
    (by rw [hl]; omega) (fun m hm hmn => hc m (by omega) hmn) (by simpa using Close.exact (p := p) (-s))
    ((hc i le_rfl (by omega)).more _ (by omega))
  refine ⟨h1, ?_⟩
  have key : ∀ (t : ℝ) (d : Coeffs ℝ), shifted n (-t) d i =
      d i + ∑ m ∈ Finset.range (n - i),
        ((((Pascal.row n i (Pascal.rowsUpto n (n + 1))).drop 1).getD m 0 : Int) : ℝ) * t ^ (0 + 1 + m) * d (i + 1 + m) := by
    intro t d
    unfold shifted
    have : n + 1 - i = (n - i) + 1 := by omega
    rw [this, Finset.sum_range_succ']
    simp only [Nat.choose_zero_right, pow_zero, add_zero, Nat.cast_one, one_mul, neg_neg]
    rw [add_comm]
    congr 1
    refine Finset.sum_congr rfl fun m hm => ?_
    rw [hget m (Finset.mem_range.1 hm)]
    unfold Pascal.bin
    have e1 : 0 + 1 + m = m + 1 := by omega
    have e2 : i + 1 + m = i + (m + 1) := by omega
    rw [e1, e2]
    push_cast
    rfl
  rw [hl] at h2
  have e := key (-s) c
  rw [neg_neg] at e
  rw [e, key |s| C]
  exact h2.more _ (by omega)

theorem shiftOuter_close (hfl : Rounds p fl) (hp : 1 ≤ p) {n : ℕ} (s : ℝ) {k : ℕ} {c C : Coeffs ℝ} :
    ∀ (left i : ℕ), i + left = n → ∀ c' : Coeffs ℝ,
    (∀ m, i ≤ m → m ≤ n → Close p k (c' m) (c m) (C m)) →
    (∀ m, m < i → Close p (k + n + 2) (c' m) (shifted n s c m) (shifted n (-|s|) C m)) →
    ∀ m ≤ n, Close p (k + n + 2) (shiftOuter fl n (Pascal.rowsUpto n (n + 1)) s left i c' m) (shifted n s c m)
      (shifted n (-|s|) C m) := by
  intro left
  induction left with
  | zero =>
    intro i h c' h1 h2 m hm
    have : i = n := by omega
    subst this
    unfold shiftOuter
    rcases Nat.lt_or_ge m i with hlt | hge
    · exact h2 m hlt
    · have : m = i := by omega
      subst this
      have := (h1 m le_rfl le_rfl).more (k + m + 2) (by omega)
      simpa [shifted] using this
  | succ left ih =>
    intro i h c' h1 h2 m hm
    unfold shiftOuter
    obtain ⟨g1, g2⟩ := shiftInner_row_close hfl hp (n := n) (i := i) (by omega) s h1
    refine ih (i + 1) (by omega) _ (fun m hm hmn => ?_) (fun m hm => ?_) m hm
    · rw [g1 m (by omega)]
      exact h1 m (by omega) hmn
    · rcases Nat.lt_or_ge m i with hlt | hge
      · rw [g1 m (by omega)]
        exact h2 m hlt
      · have : m = i := by omega
        subst this
        exact g2

/-- `shift_horizontal` of a polynomial of degree at most 33. -/
theorem shiftHorizontal_close (hfl : Rounds p fl) (hp : 1 ≤ p) {n : ℕ} (hn : n ≤ 33) (s : ℝ) {k : ℕ}
    {c' c C : Coeffs ℝ} (hc : ∀ m ≤ n, Close p k (c' m) (c m) (C m)) :
    ∃ d, shiftHorizontal fl n c' s = .ok d ∧
      ∀ m ≤ n, Close p (k + n + 2) (d m) (shifted n s c m) (shifted n (-|s|) C m) := by
  unfold shiftHorizontal
  by_cases h0 : n = 0
  · subst h0
    refine ⟨c', by simp, fun m hm => ?_⟩
    have : m = 0 := by omega
    subst this
    have := (hc 0 le_rfl).more (k + 0 + 2) (by omega)
    simpa [shifted] using this
  · rw [if_neg h0, Pascal.coefficients_small hn]
    refine ⟨_, rfl, ?_⟩
    exact shiftOuter_close hfl hp s n 0 (by omega) c' (fun m _ hm => hc m hm) (fun m hm => by omega)

open Polynomial in
theorem shifted_eval (n : ℕ) (s : ℝ) (c : Coeffs ℝ) (x : ℝ) :
    (toPoly n (shifted n s c)).eval x = (toPoly n c).eval (x - s) ∧
    (toPoly n (shifted n s c)).derivative.eval x = (toPoly n c).derivative.eval (x - s) ∧
    (toPoly n (shifted n s c)).derivative.derivative.eval x = (toPoly n c).derivative.derivative.eval (x - s) := by
  rw [Poly.toPoly_shifted]
  refine ⟨by simp, ?_, ?_⟩
  · simp [Polynomial.derivative_comp]
  · simp [Polynomial.derivative_comp]

/-- The blueprints: local coefficients, then a shift. -/
theorem blueprint_close (hfl : Rounds p fl) (hp : 1 ≤ p) {n : ℕ} (hn : n ≤ 33) (s : ℝ) {k : ℕ}
    {c' c C : Coeffs ℝ} (hc : ∀ m ≤ n, Close p k (c' m) (c m) (C m)) :
    ∃ d, shiftUnlessZero fl n c' s = .ok d ∧ ∀ x,
      Close p (3 * n + 2 + k) (eval fl n d x) ((toPoly n c).eval (x - s)) ((toPoly n C).eval (|x| + |s|)) ∧
      Close p (3 * n + 2 + k) (derivativeAt fl n d x) ((toPoly n c).derivative.eval (x - s))
        ((toPoly n C).derivative.eval (|x| + |s|)) ∧
      Close p (3 * n + 2 + k) (dderivativeAt fl n d x) ((toPoly n c).derivative.derivative.eval (x - s))
        ((toPoly n C).derivative.derivative.eval (|x| + |s|)) := by
  unfold shiftUnlessZero
  by_cases hs : s = 0
  · subst hs
    refine ⟨c', by simp, fun x => ?_⟩
    simp only [sub_zero, abs_zero, add_zero]
    exact ⟨(eval_close hfl hp x hc).more _ (by omega), (derivativeAt_close hfl hp x hc).more _ (by omega),
      (dderivativeAt_close hfl hp x hc).more _ (by omega)⟩
  · rw [if_pos hs]
    obtain ⟨d, h1, h2⟩ := shiftHorizontal_close hfl hp hn s hc
    refine ⟨d, h1, fun x => ?_⟩
    obtain ⟨e1, e2, e3⟩ := shifted_eval n s c x
    obtain ⟨f1, f2, f3⟩ := shifted_eval n (-|s|) C |x|
    rw [sub_neg_eq_add] at f1 f2 f3
    rw [← e1, ← e2, ← e3, ← f1, ← f2, ← f3]
    exact ⟨(eval_close hfl hp x h2).more _ (by omega), (derivativeAt_close hfl hp x h2).more _ (by omega),
      (dderivativeAt_close hfl hp x h2).more _ (by omega)⟩

/-- Sums of absolute values grow at most like the highest power. -/
theorem grow (n : ℕ) (C : Coeffs ℝ) (hC : ∀ i ≤ n, 0 ≤ C i) {t r D : ℝ} (ht : 0 ≤ t) (hr : 1 ≤ r) (hD : 0 ≤ D)
    (h : t ≤ r * D) : Poly.eval n C t ≤ r ^ n * Poly.eval n C D := by
  rw [Poly.eval_eq_sum, Poly.eval_eq_sum, Finset.mul_sum]
  refine Finset.sum_le_sum fun i hi => ?_
  have hi' : i ≤ n := Nat.lt_succ_iff.1 (Finset.mem_range.1 hi)
  have h1 : t ^ i ≤ (r * D) ^ i := pow_le_pow_left₀ ht h i
  have h2 : r ^ i ≤ r ^ n := pow_le_pow_right₀ hr hi'
  have h3 : 0 ≤ D ^ i := by positivity
  have h4 := hC i hi'
  calc C i * t ^ i ≤ C i * (r ^ i * D ^ i) := by rw [← mul_pow]; exact mul_le_mul_of_nonneg_left h1 h4
    _ ≤ C i * (r ^ n * D ^ i) := mul_le_mul_of_nonneg_left (mul_le_mul_of_nonneg_right h2 h3) h4
    _ = r ^ n * (C i * D ^ i) := by ring

theorem small (l : ℕ) (hl : l ≤ 16) : (1 + 1 / 2 ^ 53 : ℝ) ^ l ≤ 3 / 2 := by
  refine (pow_le_pow_right₀ (one_le_u 53) hl).trans ?_
  norm_num

/-! ## The local coefficients -/

theorem cubicDerivative_local (hfl : Rounds 53 fl) (yi vi yf vf D : ℝ) {dx : ℝ} (hD : D ≠ 0)
    (hdx : Close 53 1 dx D |D|) :
    let dy := fl (yf - yi)
    let d2 := fl (dx * dx)
    ∀ m ≤ 3, Close 53 14
      (ofList [yi, vi, fl (fl (fl (fl (3 / d2) * dy) - fl (fl (2 / dx) * vi)) - fl (fl (1 / dx) * vf)),
        fl (fl (fl (-2 / fl (d2 * dx)) * dy) + fl (fl (vf + vi) / d2))] m)
      (ofList [yi, vi, 3 / (D * D) * (yf - yi) - 2 / D * vi - 1 / D * vf,
        -2 / (D * D * D) * (yf - yi) + (vf + vi) / (D * D)] m)
      (ofList [|yi|, |vi|, 3 / |D * D| * |yf - yi| + 2 / |D| * |vi| + 1 / |D| * |vf|,
        2 / |D * D * D| * |yf - yi| + (|vf| + |vi|) / |D * D|] m) := by
  intro dy d2 m hm
  have hp : 1 ≤ 53 := by norm_num
  have hD2 : D * D ≠ 0 := mul_ne_zero hD hD
  have hD3 : D * D * D ≠ 0 := mul_ne_zero hD2 hD
  have h1 : Close 53 1 dy (yf - yi) |yf - yi| := (Close.exact _).round hfl hp
  have h2 : Close 53 3 d2 (D * D) |D * D| := (hdx.mulAbs hdx).round hfl hp
  have h3 : Close 53 5 (fl (d2 * dx)) (D * D * D) |D * D * D| := (h2.mulAbs hdx).round hfl hp
  have n3 : Close 53 0 (3 : ℝ) 3 3 := by simp [Close]
  have n2 : Close 53 0 (2 : ℝ) 2 2 := by simp [Close]
  have n1 : Close 53 0 (1 : ℝ) 1 1 := by simp [Close]
  have m2 : Close 53 0 (-2 : ℝ) (-2) 2 := by simp [Close]
  interval_cases m
  · exact (Close.exact _).more _ (by omega)
  · exact (Close.exact _).more _ (by omega)
  · have a := (((n3.div h2 hD2 (small 3 (by omega))).round hfl hp).mul h1).round hfl hp
    have b := (((n2.div hdx hD (small 1 (by omega))).round hfl hp).mul (Close.exact (p := 53) vi)).round hfl hp
    have c := (((n1.div hdx hD (small 1 (by omega))).round hfl hp).mul (Close.exact (p := 53) vf)).round hfl hp
    have d := ((a.more 12 (by omega)).sub (b.more 12 (by omega))).round hfl hp
    exact (d.sub (c.more 13 (by omega))).round hfl hp
  · have a := (((m2.div h3 hD3 (small 5 (by omega))).round hfl hp).mul h1).round hfl hp
    have b := (((((Close.exact (p := 53) vf).add (Close.exact (p := 53) vi)).round hfl hp).div h2 hD2
      (small 3 (by omega))).round hfl hp)
    exact ((a.more 13 (by omega)).add (b.more 13 (by omega))).round hfl hp

theorem cubicSecond_local (hfl : Rounds 53 fl) (yi wi yf wf D : ℝ) {dx : ℝ} (hD : D ≠ 0)
    (hdx : Close 53 1 dx D |D|) :
    let a2 := fl (wi / 2)
    let a3 := fl (fl (wf - wi) / fl (6 * dx))
    let b2 := wi / 2
    let b3 := (wf - wi) / (6 * D)
    let B2 := |wi| / 2
    let B3 := (|wf| + |wi|) / |6 * D|
    ∀ m ≤ 3, Close 53 16
      (ofList [yi, fl (fl (fl (fl (yf - yi) - fl (fl (a2 * dx) * dx)) - fl (fl (fl (a3 * dx) * dx) * dx)) / dx), a2, a3] m)
      (ofList [yi, (yf - yi - b2 * D * D - b3 * D * D * D) / D, b2, b3] m)
      (ofList [|yi|, (|yf| + |yi| + B2 * |D| * |D| + B3 * |D| * |D| * |D|) / |D|, B2, B3] m) := by
  intro a2 a3 b2 b3 B2 B3 m hm
  have hp : 1 ≤ 53 := by norm_num
  have hD6 : 6 * D ≠ 0 := mul_ne_zero (by norm_num) hD
  have n2 : Close 53 0 (2 : ℝ) 2 |2| := Close.exact _
  have n6 : Close 53 0 (6 : ℝ) 6 |6| := Close.exact _
  have h2 : Close 53 1 a2 b2 B2 := by
    have := ((Close.exact (p := 53) wi).div n2 (by norm_num) (small 0 (by omega))).round hfl hp
    rw [abs_of_pos (show (0 : ℝ) < 2 by norm_num)] at this
    exact this
  have h3 : Close 53 6 a3 b3 B3 :=
    ((((Close.exact (p := 53) wf).sub (Close.exact (p := 53) wi)).round hfl hp).div
      ((n6.mulAbs hdx).round hfl hp) hD6 (small _ (by omega))).round hfl hp
  interval_cases m
  · exact (Close.exact _).more _ (by omega)
  · have a := ((Close.exact (p := 53) yf).sub (Close.exact (p := 53) yi)).round hfl hp
    have b := (((h2.mul hdx).round hfl hp).mul hdx).round hfl hp
    have c := (((((h3.mul hdx).round hfl hp).mul hdx).round hfl hp).mul hdx).round hfl hp
    have d := ((a.more 11 (by omega)).sub (b.more 11 (by omega))).round hfl hp
    have e := (d.sub (c.more 12 (by omega))).round hfl hp
    exact (e.div hdx hD (small 1 (by omega))).round hfl hp
  · exact h2.more _ (by omega)
  · exact h3.more _ (by omega)

theorem quintic_local (hfl : Rounds 53 fl) (yi vi wi yf vf wf D : ℝ) {dx : ℝ} (hD : D ≠ 0)
    (hdx : Close 53 1 dx D |D|) :
    let d2x := fl (dx * dx)
    let d3x := fl (d2x * dx)
    let d4x := fl (d3x * dx)
    let d5x := fl (d4x * dx)
    ∀ m ≤ 5, Close 53 28
      (ofList [yi, vi, fl (wi / 2),
        fl (fl (fl (fl (20 * fl (yf - yi)) - fl (fl (fl (8 * vf) + fl (12 * vi)) * dx))
          - fl (fl (fl (fl (3 * wi) - wf) * dx) * dx)) / fl (2 * d3x)),
        fl (fl (fl (fl (30 * fl (yi - yf)) + fl (fl (fl (14 * vf) + fl (16 * vi)) * dx))
          + fl (fl (fl (fl (-2 * wf) + fl (3 * wi)) * dx) * dx)) / fl (2 * d4x)),
        fl (fl (fl (fl (12 * fl (yf - yi)) - fl (fl (fl (6 * vf) + fl (6 * vi)) * dx))
          - fl (fl (fl (wi - wf) * dx) * dx)) / fl (2 * d5x))] m)
      (ofList [yi, vi, wi / 2,
        (20 * (yf - yi) - (8 * vf + 12 * vi) * D - (3 * wi - wf) * D * D) / (2 * (D * D * D)),
        (30 * (yi - yf) + (14 * vf + 16 * vi) * D + (-2 * wf + 3 * wi) * D * D) / (2 * (D * D * D * D)),
        (12 * (yf - yi) - (6 * vf + 6 * vi) * D - (wi - wf) * D * D) / (2 * (D * D * D * D * D))] m)
      (ofList [|yi|, |vi|, |wi| / 2,
        (20 * |yf - yi| + (8 * |vf| + 12 * |vi|) * |D| + (3 * |wi| + |wf|) * |D| * |D|) / |2 * (D * D * D)|,
        (30 * |yi - yf| + (14 * |vf| + 16 * |vi|) * |D| + (2 * |wf| + 3 * |wi|) * |D| * |D|) / |2 * (D * D * D * D)|,
        (12 * |yf - yi| + (6 * |vf| + 6 * |vi|) * |D| + (|wi| + |wf|) * |D| * |D|) / |2 * (D * D * D * D * D)|] m) := by
  intro d2x d3x d4x d5x m hm
  have hp : 1 ≤ 53 := by norm_num
  have hD2 : D * D ≠ 0 := mul_ne_zero hD hD
  have hD3 : D * D * D ≠ 0 := mul_ne_zero hD2 hD
  have hD4 : D * D * D * D ≠ 0 := mul_ne_zero hD3 hD
  have hD5 : D * D * D * D * D ≠ 0 := mul_ne_zero hD4 hD
  have h2 : Close 53 3 d2x (D * D) |D * D| := (hdx.mulAbs hdx).round hfl hp
  have h3 : Close 53 5 d3x (D * D * D) |D * D * D| := (h2.mulAbs hdx).round hfl hp
  have h4 : Close 53 7 d4x (D * D * D * D) |D * D * D * D| := (h3.mulAbs hdx).round hfl hp
  have h5 : Close 53 9 d5x (D * D * D * D * D) |D * D * D * D * D| := (h4.mulAbs hdx).round hfl hp
  have n2 : Close 53 0 (2 : ℝ) 2 |2| := Close.exact _
  have two : (2 : ℝ) ≠ 0 := by norm_num
  -- a constant times a number
  have con : ∀ (a : ℝ), 0 ≤ a → Close 53 0 a a a := fun a ha => by
    have := Close.exact (p := 53) a
    rwa [abs_of_nonneg ha] at this
  have cm : ∀ (a : ℝ) {k : ℕ} {b' b B : ℝ}, 0 ≤ a → Close 53 k b' b B → Close 53 (k + 1) (fl (a * b')) (a * b) (a * B) := by
    intro a k b' b B ha h
    have := ((con a ha).mul h).round hfl hp
    rwa [zero_add] at this
  have m2 : Close 53 1 (fl (-2 * wf)) (-2 * wf) (2 * |wf|) := by
    have h : Close 53 0 (-2 : ℝ) (-2) 2 := by simp [Close]
    have := (h.mul (Close.exact (p := 53) wf)).round hfl hp
    rwa [zero_add] at this
  have X := fun a : ℝ => Close.exact (p := 53) a
  -- numerators
  have num : ∀ {a' a A b' b B e' e E : ℝ}, Close 53 2 a' a A → Close 53 2 b' b B → Close 53 2 e' e E →
      Close 53 7 (fl (fl (a' - fl (b' * dx)) - fl (fl (e' * dx) * dx))) (a - b * D - e * D * D)
        (A + B * |D| + E * |D| * |D|) := by
    intro a' a A b' b B e' e E ha hb he
    have b1 := (hb.mul hdx).round hfl hp
    have e1 := (((he.mul hdx).round hfl hp).mul hdx).round hfl hp
    have s1 := ((ha.more 4 (by omega)).sub b1).round hfl hp
    exact (((s1.more 6 (by omega)).sub e1).round hfl hp)
  have num' : ∀ {a' a A b' b B e' e E : ℝ}, Close 53 2 a' a A → Close 53 2 b' b B → Close 53 2 e' e E →
      Close 53 7 (fl (fl (a' + fl (b' * dx)) + fl (fl (e' * dx) * dx))) (a + b * D + e * D * D)
        (A + B * |D| + E * |D| * |D|) := by
    intro a' a A b' b B e' e E ha hb he
    have b1 := (hb.mul hdx).round hfl hp
    have e1 := (((he.mul hdx).round hfl hp).mul hdx).round hfl hp
    have s1 := ((ha.more 4 (by omega)).add b1).round hfl hp
    exact (((s1.more 6 (by omega)).add e1).round hfl hp)
  have dy := (X (yf - yi)).round hfl hp
  have dy' := (X (yi - yf)).round hfl hp
  interval_cases m
  · exact (Close.exact _).more _ (by omega)
  · exact (Close.exact _).more _ (by omega)
  · have := ((X wi).div n2 two (small 0 (by omega))).round hfl hp
    rw [abs_of_pos (show (0 : ℝ) < 2 by norm_num)] at this
    exact this.more _ (by omega)
  · have t := num (cm 20 (by norm_num) dy) ((((cm 8 (by norm_num) (X vf)).add (cm 12 (by norm_num) (X vi))).round hfl hp))
      (((cm 3 (by norm_num) (X wi)).sub ((X wf).more 1 (by omega))).round hfl hp)
    exact ((t.div ((n2.mulAbs h3).round hfl hp) (mul_ne_zero two hD3) (small _ (by omega))).round hfl hp).more _ (by omega)
  · have t := num' (cm 30 (by norm_num) dy') ((((cm 14 (by norm_num) (X vf)).add (cm 16 (by norm_num) (X vi))).round hfl hp))
      ((m2.add (cm 3 (by norm_num) (X wi))).round hfl hp)
    exact ((t.div ((n2.mulAbs h4).round hfl hp) (mul_ne_zero two hD4) (small _ (by omega))).round hfl hp).more _ (by omega)
  · have t := num (cm 12 (by norm_num) dy) ((((cm 6 (by norm_num) (X vf)).add (cm 6 (by norm_num) (X vi))).round hfl hp))
      ((((X wi).sub (X wf)).round hfl hp).more 2 (by omega))
    exact ((t.div ((n2.mulAbs h5).round hfl hp) (mul_ne_zero two hD5) (small _ (by omega))).round hfl hp).more _ (by omega)

end Ecl.PolyFloat
