import Verif.Model.FloatConverter
import Verif.Spec.FixedNumeral
import Verif.Lemmas.Converters
import Mathlib.Tactic.Linarith
import Mathlib.Tactic.Ring
import Mathlib.Tactic.FieldSimp
import Mathlib.Tactic.IntervalCases

/-!
# Lemmas on the conversion of floating point numbers
-/
set_option autoImplicit false
set_option linter.unusedSimpArgs false

namespace Ecl.Conv
open Ecl.Spec

theorem nearest_close {q : ℚ} (hq : 0 ≤ q) : |(nearest q : ℚ) - q| ≤ 1 / 2 := by
  have h0 : (0 : ℤ) ≤ ⌊q⌋ := Int.floor_nonneg.2 hq
  have h1 : ((⌊q⌋.toNat : ℕ) : ℚ) = (⌊q⌋ : ℚ) := by
    have : ((⌊q⌋.toNat : ℕ) : ℤ) = ⌊q⌋ := Int.toNat_of_nonneg h0
    exact_mod_cast congrArg (Int.cast : ℤ → ℚ) this
  have h2 := Int.floor_le q
  have h3 := Int.lt_floor_add_one q
  unfold nearest
  simp only
  rw [h1]
  split
  · rw [h1, abs_le]; constructor <;> linarith
  · split
    · push_cast; rw [h1, abs_le]; constructor <;> linarith
    · split
      · rw [h1, abs_le]; constructor <;> linarith
      · push_cast; rw [h1, abs_le]; constructor <;> linarith

theorem lastDigits_length (d n : Nat) : (lastDigits d n).length = d := by
  induction d generalizing n with
  | zero => rfl
  | succ d ih => simp [lastDigits, ih]

theorem digitChar_isDigit {n : Nat} (h : n < 10) : (Nat.digitChar n).isDigit = true := by
  interval_cases n <;> rfl

theorem lastDigits_isDigit {d n : Nat} {c : Char} (h : c ∈ lastDigits d n) : c.isDigit = true := by
  induction d generalizing n with
  | zero => simp [lastDigits] at h
  | succ d ih =>
    simp only [lastDigits, List.mem_append, List.mem_singleton] at h
    rcases h with h | h
    · exact ih h
    · rw [h]; exact digitChar_isDigit (Nat.mod_lt _ (by norm_num))

theorem lastDigits_value (d n i : Nat) :
    Nat.ofDigitChars 10 (lastDigits d n) i = i * 10 ^ d + n % 10 ^ d := by
  induction d generalizing n i with
  | zero => simp [lastDigits, Nat.mod_one]
  | succ d ih =>
    rw [lastDigits, Nat.ofDigitChars_append, ih,
      Nat.ofDigitChars_cons_digitChar_of_lt_ten (Nat.mod_lt _ (by norm_num)), Nat.ofDigitChars_nil]
    have h1 : n % 10 ^ (d + 1) = n / 10 % 10 ^ d * 10 + n % 10 := by
      rw [pow_succ', Nat.mod_mul]; ring
    rw [h1]; ring

theorem toDigits_zero (n : Nat) (h : (Nat.toDigits 10 n).head? = some '0') :
    Nat.toDigits 10 n = ['0'] := by
  induction n using Nat.strongRecOn with
  | ind n ih =>
    by_cases hn : n < 10
    · rw [Nat.toDigits_of_lt_base hn] at h ⊢
      interval_cases n <;> simp_all
    · have hs := toDigits_step n
      rw [if_neg (by omega)] at hs
      rw [hs] at h
      obtain ⟨c, cs, hc, -⟩ := toDigits_cons (n / 10)
      have h' : (Nat.toDigits 10 (n / 10)).head? = some '0' := by
        rw [hc] at h ⊢; simpa using h
      have h2 := ih (n / 10) (by omega) h'
      have h3 : n / 10 = 0 := by
        have := Nat.ofDigitChars_ten_toDigits (n := n / 10)
        rw [h2] at this
        exact this.symm
      omega

theorem fixedText_numeral (d : Nat) (q : ℚ) : FixedNumeral d q (fixedText d q) := by
  refine ⟨_, lastDigits d (nearest (|q| * 10 ^ d)), rfl, lastDigits_length _ _, ?_, ?_, ?_, ?_⟩
  · obtain ⟨c, cs, hc, -⟩ := toDigits_cons (nearest (|q| * 10 ^ d) / 10 ^ d)
    rw [hc]; simp
  · intro c hc
    rcases List.mem_append.1 hc with h | h
    · exact toDigits_isDigit h
    · exact lastDigits_isDigit h
  · exact toDigits_zero _
  · rw [Nat.ofDigitChars_append, Nat.ofDigitChars_ten_toDigits, lastDigits_value]
    have h1 : nearest (|q| * 10 ^ d) / 10 ^ d * 10 ^ d + nearest (|q| * 10 ^ d) % 10 ^ d =
        nearest (|q| * 10 ^ d) := Nat.div_add_mod' _ _
    rw [h1]
    have hp : (0 : ℚ) < 10 ^ d := by positivity
    have h2 := nearest_close (q := |q| * 10 ^ d) (mul_nonneg (abs_nonneg _) hp.le)
    have h3 : (nearest (|q| * 10 ^ d) : ℚ) / 10 ^ d - |q| =
        ((nearest (|q| * 10 ^ d) : ℚ) - |q| * 10 ^ d) / 10 ^ d := by
      field_simp
    rw [h3, abs_div, abs_of_pos hp]
    exact div_le_div_of_nonneg_right h2 hp.le

theorem isDigit_ne_nul {c : Char} (h : c.isDigit = true) : c ≠ '\x00' := by
  rintro rfl; revert h; decide

theorem fixedText_no_nul (d : Nat) (q : ℚ) : ∀ c ∈ fixedText d q, c ≠ '\x00' := by
  intro c hc
  unfold fixedText at hc
  simp only [List.mem_append] at hc
  rcases hc with (h | h) | h
  · split at h
    · simp at h; rw [h]; decide
    · simp at h
  · exact isDigit_ne_nul (toDigits_isDigit h)
  · split at h
    · simp at h
    · rcases List.mem_cons.1 h with h | h
      · rw [h]; decide
      · exact isDigit_ne_nul (lastDigits_isDigit h)

/-- The shape of `format_specifier` at all times. -/
def FormatOk (fmt : List Char) : Prop := ∃ a b c d, fmt = ['%', a, b, c, d, '\x00']

theorem formatOk_new : FormatOk formatNew := ⟨_, _, _, _, rfl⟩

theorem formatFor_ok {fmt : List Char} (h : FormatOk fmt) (p : Int) :
    FormatOk (formatFor fmt p) ∧
      formatDecimals ((formatFor fmt p).takeWhile (· ≠ '\x00')) = some (decimals p) := by
  obtain ⟨a, b, c, d, rfl⟩ := h
  unfold formatFor decimals
  split
  · exact ⟨⟨_, _, _, _, rfl⟩, by simp [List.takeWhile, formatDecimals]⟩
  · rename_i h0
    obtain ⟨n, rfl⟩ := Int.eq_ofNat_of_zero_le (not_lt.1 h0)
    simp only [Int.toNat_natCast]
    split
    · rename_i h1
      have hn : n < 10 := by exact_mod_cast h1
      refine ⟨⟨_, _, _, _, rfl⟩, ?_⟩
      interval_cases n <;> rfl
    · rename_i h1
      split
      · rename_i h2
        have hn : n < 20 := by exact_mod_cast h2
        have hn' : 10 ≤ n := by
          by_contra h; exact h1 (by exact_mod_cast not_le.1 h)
        refine ⟨⟨_, _, _, _, rfl⟩, ?_⟩
        interval_cases n <;> rfl
      · rename_i h2
        have hn : 20 ≤ n := by
          by_contra h; exact h2 (by exact_mod_cast not_le.1 h)
        refine ⟨⟨_, _, _, _, rfl⟩, ?_⟩
        rw [Nat.min_eq_right hn]
        rfl

theorem takeWhile_text {t rest : List Char} (h : ∀ c ∈ t, c ≠ '\x00') :
    (t ++ '\x00' :: rest).takeWhile (· ≠ '\x00') = t := by
  rw [List.takeWhile_append_of_pos (by simpa using h)]
  simp

/-- What a call does, for a buffer of at least one character besides its end. -/
theorem call_eq {c : FloatConv} (hf : FormatOk c.fmt) (hm : c.mem.length = c.cap + 1) (q : ℚ) (p : Int)
    (hc : c.cap ≠ 0) :
    c.call q p = .ok (⟨formatFor c.fmt p, (fixedText (decimals p) q).take (c.cap - 1) ++
      '\x00' :: c.mem.drop (((fixedText (decimals p) q).take (c.cap - 1)).length + 1), c.cap⟩,
      some ((fixedText (decimals p) q).take (c.cap - 1))) := by
  have h1 := (formatFor_ok hf p).2
  have h2 : ¬ c.mem.length < min (fixedText (decimals p) q).length (c.cap - 1) + 1 := by omega
  have h3 : snprintf c.mem c.cap (formatFor c.fmt p) q = .ok ((fixedText (decimals p) q).take (c.cap - 1) ++
      '\x00' :: c.mem.drop (((fixedText (decimals p) q).take (c.cap - 1)).length + 1)) := by
    unfold snprintf
    rw [h1]
    simp only
    rw [if_neg hc, if_neg h2]
    simp
  unfold FloatConv.call
  simp only [h3]
  rw [takeWhile_text (fun x hx => fixedText_no_nul _ _ x (List.mem_of_mem_take hx))]
  simp

/-- What every call keeps. -/
structure Kept (cap : Nat) (c : FloatConv) : Prop where
  fmt : FormatOk c.fmt
  len : c.mem.length = cap + 1
  cap : c.cap = cap

theorem call_kept {cap : Nat} {c : FloatConv} (h : Kept cap c) (q : ℚ) (p : Int) :
    ∃ r, c.call q p = .ok r ∧ Kept cap r.1 := by
  obtain ⟨hf, hl, hc⟩ := h
  have h1 := formatFor_ok hf p
  by_cases h0 : c.cap = 0
  · have h3 : snprintf c.mem c.cap (formatFor c.fmt p) q = .ok c.mem := by
      unfold snprintf
      rw [h1.2]
      simp [h0]
    unfold FloatConv.call
    simp only [h3]
    exact ⟨_, rfl, h1.1, hl, hc⟩
  · refine ⟨_, call_eq hf (by omega) q p h0, h1.1, ?_, hc⟩
    simp
    omega

theorem calls_kept {cap : Nat} (xs : List (ℚ × Int)) {c : FloatConv} (h : Kept cap c) :
    ∃ c', c.calls xs = .ok c' ∧ Kept cap c' := by
  induction xs generalizing c with
  | nil => exact ⟨c, rfl, h⟩
  | cons x xs ih =>
    obtain ⟨r, hr, hk⟩ := call_kept h x.1 x.2
    obtain ⟨c', hc', hk'⟩ := ih hk
    exact ⟨c', by simp [FloatConv.calls, hr, hc'], hk'⟩

end Ecl.Conv
