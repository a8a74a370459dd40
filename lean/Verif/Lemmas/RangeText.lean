import Verif.Lemmas.Range
import Verif.Lemmas.TextFloat

/-! # Reading numbers: the limits of the exponent -/
set_option autoImplicit false

namespace Ecl.TextFloat
open Ecl.TextStream Ecl.Spec

section
variable {p : ℕ} {lo hi : ℤ} {fl fl1 fs fs1 : ℝ → ℝ} (hp : 24 ≤ p) (hlo : lo + p - 1 ≤ -126) (hlo' : lo ≤ -149)
  (hhi : 128 ≤ hi) (h1 : Rounds p fl1) (hag : ∀ x, Safe p lo hi x → fl x = fl1 x)
  (h2 : Rounds 24 fs1) (has : ∀ x, Safe 24 (-149) 128 x → fs x = fs1 x)

include hp hhi in
theorem safe_of_multiple {x : ℝ} (h : ∃ k : ℤ, x = k * (2 : ℝ) ^ lo) (hx : |x| ≤ 2 ^ (127 : ℤ)) : Safe p lo hi x :=
  ⟨hx.trans ((zpow_le_zpow_right₀ (by norm_num) (by omega)).trans (le_largest (by omega) hi)), .inr h⟩

include hp hlo hhi in
theorem safe_of_one {x : ℝ} (h : x = 0 ∨ 1 ≤ x) (hx : x ≤ 2 ^ (127 : ℤ)) : Safe p lo hi x := by
  have hl : (2 : ℝ) ^ (127 : ℤ) ≤ largest p hi :=
    (zpow_le_zpow_right₀ (by norm_num) (by omega)).trans (le_largest (by omega) hi)
  rcases h with rfl | h
  · exact ⟨by rw [abs_zero]; exact le_trans (by positivity) hl, .inr ⟨0, by simp⟩⟩
  · refine ⟨by rw [abs_of_pos (by linarith)]; exact hx.trans hl, .inl ?_⟩
    rw [abs_of_pos (by linarith)]
    refine le_trans ?_ h
    have : (2 : ℝ) ^ (lo + p - 1) ≤ 2 ^ (0 : ℤ) := zpow_le_zpow_right₀ (by norm_num) (by omega)
    simpa using this

include hp h1 in
theorem round_le {x : ℝ} (hx : 0 ≤ x) : fl1 x ≤ x * (1 + 1 / 2 ^ 24) ∧ x * (1 - 1 / 2 ^ 24) ≤ fl1 x := by
  have h := h1.relative (by omega) x
  rw [abs_of_nonneg hx] at h
  have h3 : x / 2 ^ p ≤ x / 2 ^ 24 := div_le_div_of_nonneg_left hx (by positivity) (pow_le_pow_right₀ (by norm_num) hp)
  have h4 := abs_le.1 h
  have e1 : x * (1 + 1 / 2 ^ 24) = x + x / 2 ^ 24 := by ring
  have e2 : x * (1 - 1 / 2 ^ 24) = x - x / 2 ^ 24 := by ring
  rw [e1, e2]
  constructor <;> linarith

include hp h1 in
theorem round_one {x : ℝ} (h : x = 0 ∨ 1 ≤ x) : fl1 x = 0 ∨ 1 ≤ fl1 x := by
  rcases h with rfl | h
  · exact .inl (h1.self (isFloat_zero p))
  · refine .inr (h1.ge ?_ h)
    have := isFloat_pow (p := p) (by omega) 0
    simpa using this

include hp hlo hhi h1 hag in
theorem intSum_agrees (ds : List Char) : ∀ n : ℝ, (∀ c ∈ ds, c.isDigit = true) → (n = 0 ∨ 1 ≤ n) →
    (∃ k : ℤ, n = k * (2 : ℝ) ^ lo) → 12 ^ ds.length * (n + 1) ≤ 2 ^ (100 : ℤ) →
    intSum fl n ds = intSum fl1 n ds ∧ (∃ k : ℤ, intSum fl1 n ds = k * (2 : ℝ) ^ lo) ∧
    0 ≤ intSum fl1 n ds ∧ intSum fl1 n ds + 1 ≤ 12 ^ ds.length * (n + 1) := by
  induction ds with
  | nil =>
    intro n _ h0 hm hb
    refine ⟨rfl, hm, ?_, ?_⟩
    · rcases h0 with h | h <;> simp only [intSum] <;> linarith
    · simp [intSum]
  | cons c cs ih =>
    intro n hd h0 hm hb
    have hn : 0 ≤ n := by rcases h0 with h | h <;> linarith
    have hp1 : (1 : ℝ) ≤ 12 ^ (c :: cs).length := one_le_pow₀ (by norm_num)
    have hnb : n + 1 ≤ 2 ^ (100 : ℤ) := le_trans (by nlinarith) hb
    have h127 : (12 : ℝ) * 2 ^ (100 : ℤ) ≤ 2 ^ (127 : ℤ) := by norm_num
    have h10 : (10 * n = 0 ∨ 1 ≤ 10 * n) := by
      rcases h0 with h | h
      · exact .inl (by rw [h]; ring)
      · exact .inr (by linarith)
    have hdv : (digVal c : ℝ) ≤ 9 := by exact_mod_cast digVal_le (hd c (by simp))
    have hdv0 : (0 : ℝ) ≤ digVal c := by positivity
    have hr := round_le hp h1 (x := 10 * n) (by linarith)
    have hr1 := round_one hp h1 h10
    have hy0 : 0 ≤ fl1 (10 * n) := by rcases hr1 with h | h <;> linarith
    have hs := hag _ (safe_of_one (lo := lo) (hi := hi) hp hlo hhi h10 (by linarith))
    have hsum : (fl1 (10 * n) + digVal c = 0 ∨ 1 ≤ fl1 (10 * n) + digVal c) := by
      rcases hr1 with h | h
      · rw [h, zero_add]
        rcases Nat.eq_zero_or_pos (digVal c) with h | h
        · exact .inl (by exact_mod_cast h)
        · exact .inr (by exact_mod_cast h)
      · exact .inr (by linarith)
    have hup : fl1 (10 * n) + digVal c ≤ 11 * n + 9 := by
      norm_num at hr
      linarith
    have hsf := safe_of_one (lo := lo) (hi := hi) hp hlo hhi hsum (by linarith)
    have hr2 := round_le hp h1 (x := fl1 (10 * n) + digVal c) (by linarith)
    have hm' := (hsf.rounded (by omega) (by omega) h1).multiple
    have hup2 : fl1 (fl1 (10 * n) + digVal c) + 1 ≤ 12 * (n + 1) := by
      norm_num at hr2 ⊢
      linarith
    have hb' : 12 ^ cs.length * (fl1 (fl1 (10 * n) + digVal c) + 1) ≤ 12 ^ (c :: cs).length * (n + 1) := by
      rw [List.length_cons, pow_succ, mul_assoc]
      exact mul_le_mul_of_nonneg_left hup2 (by positivity)
    have := ih (fl1 (fl1 (10 * n) + digVal c)) (fun x hx => hd x (by simp [hx])) (round_one hp h1 hsum) hm' (hb'.trans hb)
    simp only [intSum]
    rw [hs, hag _ hsf]
    exact ⟨this.1, this.2.1, this.2.2.1, this.2.2.2.trans hb'⟩

theorem tenth_bounds : 1 / 10 ≤ tenth ∧ tenth ≤ 1 := by unfold tenth; constructor <;> norm_num

include hp hlo hlo' hhi h1 hag h2 has in
theorem fracSum_agrees (ds : List Char) : ∀ m n : ℝ, (∀ c ∈ ds, c.isDigit = true) → m ≤ 1 →
    2 ^ (-(100 : ℤ)) ≤ m / 12 ^ ds.length → 0 ≤ n → (∃ k : ℤ, n = k * (2 : ℝ) ^ lo) →
    2 ^ ds.length * (n + 20) ≤ 2 ^ (120 : ℤ) → fracSum fs fl m n ds = fracSum fs1 fl1 m n ds := by
  induction ds with
  | nil => intros; rfl
  | cons c cs ih =>
    intro m n hd hm1 hm hn hmul hb
    have ht := tenth_bounds
    have hpow : (1 : ℝ) ≤ 12 ^ cs.length := one_le_pow₀ (by norm_num)
    have hpow2 : (1 : ℝ) ≤ 2 ^ (c :: cs).length := one_le_pow₀ (by norm_num)
    have hsmall : (0 : ℝ) < 2 ^ (-(100 : ℤ)) := by positivity
    have h126 : (2 : ℝ) ^ ((-149 : ℤ) + (24 : ℕ) - 1) ≤ 2 ^ (-(100 : ℤ)) :=
      zpow_le_zpow_right₀ (by norm_num) (by norm_num)
    have hrest (m' : ℝ) (h : m / 12 ≤ m') : 2 ^ (-(100 : ℤ)) ≤ m' / 12 ^ cs.length := by
      refine hm.trans ?_
      rw [List.length_cons, pow_succ, mul_comm, ← div_div]
      exact div_le_div_of_nonneg_right h (by positivity)
    replace ih := fun m' n' h1 h2 (h3 : m / 12 ≤ m') => ih m' n' h1 h2 (hrest m' h3)
    clear hrest
    generalize (2 : ℝ) ^ (-(100 : ℤ)) = S at hm hsmall h126
    have hm0 : 12 * S ≤ m := by
      rw [List.length_cons, pow_succ, le_div_iff₀ (by positivity)] at hm
      nlinarith
    have hmp : 0 < m := lt_of_lt_of_le (by positivity) hm0
    have hnb : n + 20 ≤ 2 ^ (120 : ℤ) := le_trans (by nlinarith) hb
    have hmt : m * (1 / 10) ≤ m * tenth := mul_le_mul_of_nonneg_left ht.1 hmp.le
    have hmt1 : m * tenth ≤ 1 := by nlinarith
    have hs1 : Safe 24 (-149) 128 (m * tenth) := by
      refine ⟨?_, .inl ?_⟩
      · rw [abs_of_pos (by linarith)]
        refine hmt1.trans (le_trans ?_ (le_largest (by norm_num) 128))
        norm_num
      · rw [abs_of_pos (by linarith)]
        exact h126.trans (by linarith)
    have hr := round_le (p := 24) le_rfl h2 (x := m * tenth) (by linarith)
    have hlow : m / 12 ≤ fs1 (m * tenth) := by
      refine le_trans ?_ hr.2
      norm_num
      linarith
    have hup : fs1 (m * tenth) ≤ 1 := by
      have := isFloat_pow (p := 24) (by norm_num) 0
      exact h2.le (by simpa using this) hmt1
    have hm'0 : S ≤ fs1 (m * tenth) := le_trans (by linarith) hlow
    have hdv : (digVal c : ℝ) ≤ 9 := by exact_mod_cast digVal_le (hd c (by simp))
    have hdv0 : (0 : ℝ) ≤ digVal c := by positivity
    have hs2 : Safe 24 (-149) 128 (fs1 (m * tenth) * digVal c) := by
      have hlarge : (9 : ℝ) ≤ largest 24 128 := le_trans (by norm_num) (le_largest (by norm_num) 128)
      have hab : |fs1 (m * tenth) * digVal c| = fs1 (m * tenth) * digVal c :=
        abs_of_nonneg (mul_nonneg (by linarith) hdv0)
      refine ⟨by rw [hab]; nlinarith, ?_⟩
      rcases Nat.eq_zero_or_pos (digVal c) with h | h
      · exact .inr ⟨0, by rw [h]; simp⟩
      · refine .inl ?_
        rw [hab]
        have h1d : (1 : ℝ) ≤ digVal c := by exact_mod_cast h
        refine h126.trans ?_
        nlinarith
    have ht2 := round_le (p := 24) le_rfl h2 (x := fs1 (m * tenth) * digVal c) (mul_nonneg (by linarith) hdv0)
    have hadd : fs1 (fs1 (m * tenth) * digVal c) ≤ 10 := by
      refine ht2.1.trans ?_
      have : fs1 (m * tenth) * digVal c ≤ 9 := by nlinarith
      norm_num
      linarith
    have hadd0 : 0 ≤ fs1 (fs1 (m * tenth) * digVal c) := by
      refine le_trans ?_ ht2.2
      have : 0 ≤ fs1 (m * tenth) * digVal c := mul_nonneg (by linarith) hdv0
      norm_num
      linarith
    have hmulsum : ∃ k : ℤ, n + fs1 (fs1 (m * tenth) * digVal c) = k * (2 : ℝ) ^ lo :=
      multiple_add hmul (multiple_of_le hlo' (hs2.rounded (by norm_num) (by norm_num) h2).multiple)
    have hs3 : Safe p lo hi (n + fs1 (fs1 (m * tenth) * digVal c)) := by
      refine safe_of_multiple hp hhi hmulsum ?_
      rw [abs_of_nonneg (by linarith)]
      have : (2 : ℝ) ^ (120 : ℤ) + 10 ≤ 2 ^ (127 : ℤ) := by norm_num
      linarith
    have hr3 := round_le hp h1 (x := n + fs1 (fs1 (m * tenth) * digVal c)) (by linarith)
    have hn' : 0 ≤ fl1 (n + fs1 (fs1 (m * tenth) * digVal c)) := by
      refine le_trans ?_ hr3.2
      norm_num
      linarith
    have hn2 : fl1 (n + fs1 (fs1 (m * tenth) * digVal c)) + 20 ≤ 2 * (n + 20) := by
      norm_num at hr3
      linarith
    simp only [fracSum]
    rw [has _ hs1, has _ hs2, hag _ hs3]
    refine ih _ _ (fun x hx => hd x (by simp [hx])) hup hlow hn' (hs3.rounded (by omega) (by omega) h1).multiple ?_
    refine le_trans ?_ hb
    rw [List.length_cons, pow_succ, mul_assoc]
    exact mul_le_mul_of_nonneg_left hn2 (by positivity)

theorem fracLoop_digits (c : Char) (rest : List Char) (room : ℕ) :
    (∀ x ∈ (fracLoop c rest room).1, x.isDigit = true) ∧ (fracLoop c rest room).1.length ≤ room := by
  induction room generalizing c rest with
  | zero => cases rest <;> simp [fracLoop]
  | succ r ih =>
    cases rest with
    | nil => simp [fracLoop]
    | cons d ds =>
      simp only [fracLoop]
      split
      next h =>
        rw [dig_eq] at h
        have := ih d ds
        refine ⟨?_, by simpa using this.2⟩
        intro x hx
        rcases List.mem_cons.1 hx with rfl | hx
        · exact h
        · exact this.1 x hx
      next h => simp

include hp hlo hlo' hhi h1 hag h2 has in
theorem getFloat_agrees (old : ℝ) (inp : List Char) : getFloat fs fl old inp = getFloat fs1 fl1 old inp := by
  have key (sign : ℝ) (c : Char) (rest : List Char) :
      finishFloat fs fl sign old c rest = finishFloat fs1 fl1 sign old c rest := by
    have hd := fracLoop_digits c rest 25
    have hpow : (12 : ℝ) ^ (fracLoop c rest 25).1.length ≤ 12 ^ 25 := pow_le_pow_right₀ (by norm_num) hd.2
    have h100 : (12 : ℝ) ^ 25 ≤ 2 ^ (100 : ℤ) := by norm_num
    obtain ⟨e1, e2, e3, e4⟩ := intSum_agrees hp hlo hhi h1 hag (fracLoop c rest 25).1 0 hd.1 (.inl rfl) ⟨0, by simp⟩
      (by simpa using hpow.trans h100)
    unfold finishFloat
    dsimp only
    rw [e1]
    split
    next hdot =>
      split
      · rfl
      next d ds _ =>
        have hq := fracLoop_digits d ds 25
        rw [fracSum_agrees hp hlo hlo' hhi h1 hag h2 has (fracLoop d ds 25).1 1 _ hq.1 le_rfl ?_ e3 e2 ?_]
        · have hqp : (12 : ℝ) ^ (fracLoop d ds 25).1.length ≤ 12 ^ 25 := pow_le_pow_right₀ (by norm_num) hq.2
          rw [zpow_neg, one_div]
          exact inv_anti₀ (by positivity) (hqp.trans h100)
        · have hqp : (2 : ℝ) ^ (fracLoop d ds 25).1.length ≤ 2 ^ 25 := pow_le_pow_right₀ (by norm_num) hq.2
          have hle : intSum fl1 0 (fracLoop c rest 25).1 + 20 ≤ 12 ^ 25 + 20 := by linarith
          refine (mul_le_mul hqp hle (by linarith) (by positivity)).trans ?_
          norm_num
    · rfl
  unfold getFloat
  cases skip inp with
  | none => rfl
  | some q =>
    obtain ⟨c, cs⟩ := q
    cases cs <;> simp only [key]

end
end Ecl.TextFloat
