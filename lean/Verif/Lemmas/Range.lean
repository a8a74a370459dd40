import Verif.Spec.Range
import Verif.Lemmas.Rounding
import Mathlib.Data.Set.Finite.Lattice
import Mathlib.Data.Finite.Prod
import Mathlib.Data.Set.Finite.Lemmas
import Mathlib.Data.Int.Interval

/-! # Formats with limits for the exponent -/
set_option autoImplicit false

namespace Ecl.Spec

theorem InFormat.isFloat {p : ℕ} {lo hi : ℤ} {x : ℝ} (h : InFormat p lo hi x) : IsFloat p x := by
  obtain ⟨m, e, hm, -, -, rfl⟩ := h
  exact ⟨m, e, hm, rfl⟩

theorem InFormat.neg {p : ℕ} {lo hi : ℤ} {x : ℝ} (h : InFormat p lo hi x) : InFormat p lo hi (-x) := by
  obtain ⟨m, e, hm, h1, h2, rfl⟩ := h
  exact ⟨-m, e, by simpa using hm, h1, h2, by push_cast; ring⟩

theorem inFormat_zero {p : ℕ} {lo hi : ℤ} (h : lo + p ≤ hi) : InFormat p lo hi 0 := ⟨0, lo, by simp, le_rfl, h, by simp⟩

/-- A multiple of a power of two is one of every smaller power. -/
theorem multiple_of_le {x : ℝ} {a b : ℤ} (hab : b ≤ a) (h : ∃ k : ℤ, x = k * (2 : ℝ) ^ a) :
    ∃ k : ℤ, x = k * (2 : ℝ) ^ b := by
  obtain ⟨k, rfl⟩ := h
  obtain ⟨j, hj⟩ : ∃ j : ℕ, a - b = j := ⟨(a - b).toNat, by omega⟩
  refine ⟨k * 2 ^ j, ?_⟩
  have : (2 : ℝ) ^ a = 2 ^ j * 2 ^ b := by
    rw [← zpow_natCast, ← hj, ← zpow_add₀ (by norm_num)]
    congr 1
    omega
  rw [this]
  push_cast
  ring

theorem InFormat.multiple {p : ℕ} {lo hi : ℤ} {x : ℝ} (h : InFormat p lo hi x) : ∃ k : ℤ, x = k * (2 : ℝ) ^ lo := by
  obtain ⟨m, e, -, h1, -, rfl⟩ := h
  exact multiple_of_le h1 ⟨m, rfl⟩

theorem multiple_add {x y : ℝ} {a : ℤ} (hx : ∃ k : ℤ, x = k * (2 : ℝ) ^ a) (hy : ∃ k : ℤ, y = k * (2 : ℝ) ^ a) :
    ∃ k : ℤ, x + y = k * (2 : ℝ) ^ a := by
  obtain ⟨k, rfl⟩ := hx
  obtain ⟨l, rfl⟩ := hy
  exact ⟨k + l, by push_cast; ring⟩

theorem multiple_neg {x : ℝ} {a : ℤ} (hx : ∃ k : ℤ, x = k * (2 : ℝ) ^ a) : ∃ k : ℤ, -x = k * (2 : ℝ) ^ a := by
  obtain ⟨k, rfl⟩ := hx
  exact ⟨-k, by push_cast; ring⟩

theorem multiple_sub {x y : ℝ} {a : ℤ} (hx : ∃ k : ℤ, x = k * (2 : ℝ) ^ a) (hy : ∃ k : ℤ, y = k * (2 : ℝ) ^ a) :
    ∃ k : ℤ, x - y = k * (2 : ℝ) ^ a := by
  rw [sub_eq_add_neg]
  exact multiple_add hx (multiple_neg hy)

theorem multiple_int {x : ℝ} {a : ℤ} (n : ℤ) (hx : ∃ k : ℤ, x = k * (2 : ℝ) ^ a) :
    ∃ k : ℤ, n * x = k * (2 : ℝ) ^ a := by
  obtain ⟨k, rfl⟩ := hx
  exact ⟨n * k, by push_cast; ring⟩

theorem multiple_ge {x : ℝ} {a : ℤ} (hx : ∃ k : ℤ, x = k * (2 : ℝ) ^ a) (h0 : x ≠ 0) : (2 : ℝ) ^ a ≤ |x| := by
  obtain ⟨k, rfl⟩ := hx
  have hk : k ≠ 0 := by rintro rfl; simp at h0
  have h2 : (0 : ℝ) < 2 ^ a := by positivity
  rw [abs_mul, abs_of_pos h2]
  have : (1 : ℝ) ≤ |(k : ℝ)| := by exact_mod_cast Int.one_le_abs hk
  nlinarith

/-- Numbers that are not small are multiples of the spacing. -/
theorem IsFloat.grid {p : ℕ} {y : ℝ} (h : IsFloat p y) {E : ℤ} (hE : (2 : ℝ) ^ E ≤ |y|) :
    ∃ k : ℤ, y = k * (2 : ℝ) ^ (E + 1 - p) := by
  obtain ⟨m, e, hm, rfl⟩ := h
  have h2 : (0 : ℝ) < 2 ^ e := by positivity
  have hlt : (2 : ℝ) ^ E < 2 ^ ((p : ℤ) + e) := by
    have h3 : |(m : ℝ) * 2 ^ e| < 2 ^ (p : ℤ) * 2 ^ e := by
      rw [abs_mul, abs_of_pos h2]
      refine mul_lt_mul_of_pos_right ?_ h2
      rw [zpow_natCast]
      exact_mod_cast hm
    rw [zpow_add₀ (by norm_num)]
    exact lt_of_le_of_lt hE h3
  have hle : E < p + e := (zpow_lt_zpow_iff_right₀ (by norm_num : (1 : ℝ) < 2)).1 hlt
  exact multiple_of_le (by omega) ⟨m, rfl⟩

theorem largest_lt (p : ℕ) (hi : ℤ) : largest p hi < 2 ^ hi := by
  have h : (2 : ℝ) ^ hi = 2 ^ p * 2 ^ (hi - p) := by
    rw [← zpow_natCast, ← zpow_add₀ (by norm_num)]
    congr 1
    omega
  rw [h, largest]
  exact mul_lt_mul_of_pos_right (by linarith) (by positivity)

theorem le_largest {p : ℕ} (hp : 1 ≤ p) (hi : ℤ) : (2 : ℝ) ^ (hi - 1) ≤ largest p hi := by
  have h : (2 : ℝ) ^ (hi - 1) = 2 ^ (p - 1) * 2 ^ (hi - p) := by
    rw [← zpow_natCast, ← zpow_add₀ (by norm_num)]
    congr 1
    omega
  rw [h, largest]
  refine mul_le_mul_of_nonneg_right ?_ (by positivity)
  obtain ⟨q, rfl⟩ : ∃ q, p = q + 1 := ⟨p - 1, by omega⟩
  have : (1 : ℝ) ≤ 2 ^ q := one_le_pow₀ (by norm_num)
  rw [Nat.add_sub_cancel, pow_succ]
  linarith

theorem isFloat_largest (p : ℕ) (hi : ℤ) : IsFloat p (largest p hi) := by
  refine ⟨2 ^ p - 1, hi - p, ?_, by rw [largest]; push_cast; ring⟩
  have : (1 : ℤ) ≤ 2 ^ p := one_le_pow₀ (by norm_num)
  rw [abs_of_nonneg (by linarith)]
  linarith

/-- A number of `p` bits that is neither too small nor too large is one of the format. -/
theorem IsFloat.inFormat {p : ℕ} {lo hi : ℤ} {x : ℝ} (h : IsFloat p x) (h1 : (2 : ℝ) ^ (lo + p - 1) ≤ |x|)
    (h2 : |x| < 2 ^ hi) : InFormat p lo hi x := by
  have hx : 0 < |x| := lt_of_lt_of_le (by positivity) h1
  obtain ⟨E, h3, h4⟩ := exists_mem_Ico_zpow hx (by norm_num : (1 : ℝ) < 2)
  obtain ⟨k, hk⟩ := h.grid h3
  have a1 : lo + p - 1 < E + 1 :=
    (zpow_lt_zpow_iff_right₀ (by norm_num : (1 : ℝ) < 2)).1 (lt_of_le_of_lt h1 h4)
  have a2 : E < hi := (zpow_lt_zpow_iff_right₀ (by norm_num : (1 : ℝ) < 2)).1 (lt_of_le_of_lt h3 h2)
  refine ⟨k, E + 1 - p, ?_, by omega, by omega, hk⟩
  have hg : (0 : ℝ) < 2 ^ (E + 1 - (p : ℤ)) := by positivity
  rw [hk, abs_mul, abs_of_pos hg, show E + 1 = p + (E + 1 - p) by ring, zpow_add₀ (by norm_num), zpow_natCast,
    show (p : ℤ) + (E + 1 - p) - p = E + 1 - p by ring] at h4
  have := lt_of_mul_lt_mul_right h4 hg.le
  exact_mod_cast this

theorem InFormat.abs_le {p : ℕ} {lo hi : ℤ} {x : ℝ} (h : InFormat p lo hi x) : |x| ≤ largest p hi := by
  obtain ⟨m, e, hm, -, h2, rfl⟩ := h
  have he : (0 : ℝ) < 2 ^ e := by positivity
  rw [abs_mul, abs_of_pos he, largest]
  have h3 : |(m : ℝ)| ≤ 2 ^ p - 1 := by
    have : |m| ≤ 2 ^ p - 1 := by linarith [Int.add_one_le_iff.2 hm]
    exact_mod_cast this
  exact mul_le_mul h3 (zpow_le_zpow_right₀ (by norm_num) (by omega)) he.le ((abs_nonneg _).trans h3)

/-- Arguments whose rounding is not affected by the limits: not too large, and either not too small or a multiple of the
smallest number of the format (as sums and differences of its numbers are). -/
def Safe (p : ℕ) (lo hi : ℤ) (x : ℝ) : Prop :=
  |x| ≤ largest p hi ∧ ((2 : ℝ) ^ (lo + p - 1) ≤ |x| ∨ ∃ k : ℤ, x = k * (2 : ℝ) ^ lo)

theorem Safe.inFormat {p : ℕ} {lo hi : ℤ} {x : ℝ} (hp : 1 ≤ p) (hr : lo + p ≤ hi) (h : Safe p lo hi x) (hf : IsFloat p x) :
    InFormat p lo hi x := by
  rcases h with ⟨h1, h2⟩
  by_cases h : (2 : ℝ) ^ (lo + p - 1) ≤ |x|
  · exact hf.inFormat h (lt_of_le_of_lt h1 (largest_lt p hi))
  · obtain ⟨k, rfl⟩ := h2.resolve_left h
    refine ⟨k, lo, ?_, le_rfl, hr, rfl⟩
    rw [not_le] at h
    have hg : (0 : ℝ) < 2 ^ lo := by positivity
    rw [abs_mul, abs_of_pos hg, show lo + p - 1 = ((p - 1 : ℕ) : ℤ) + lo by omega, zpow_add₀ (by norm_num),
      zpow_natCast] at h
    have h3 := lt_of_mul_lt_mul_right h hg.le
    have h4 : |k| < 2 ^ (p - 1) := by exact_mod_cast h3
    exact lt_of_lt_of_le h4 (pow_le_pow_right₀ (by norm_num) (by omega))

/-- Small multiples of the smallest number are numbers of the format. -/
theorem small_isFloat {p : ℕ} {lo : ℤ} {x : ℝ} (hp : 1 ≤ p) (h : |x| < (2 : ℝ) ^ (lo + p - 1))
    (hx : ∃ k : ℤ, x = k * (2 : ℝ) ^ lo) : IsFloat p x := by
  obtain ⟨k, rfl⟩ := hx
  refine ⟨k, lo, ?_, rfl⟩
  have hg : (0 : ℝ) < 2 ^ lo := by positivity
  rw [abs_mul, abs_of_pos hg, show lo + p - 1 = ((p - 1 : ℕ) : ℤ) + lo by omega, zpow_add₀ (by norm_num),
    zpow_natCast] at h
  have h3 := lt_of_mul_lt_mul_right h hg.le
  have h4 : |k| < 2 ^ (p - 1) := by exact_mod_cast h3
  exact lt_of_lt_of_le h4 (pow_le_pow_right₀ (by norm_num) (by omega))

theorem Rounds.abs_le {p : ℕ} {fl : ℝ → ℝ} (hfl : Rounds p fl) {x y : ℝ} (hy : IsFloat p y) (h : |x| ≤ y) : |fl x| ≤ y := by
  have := _root_.abs_le.1 h
  exact _root_.abs_le.2 ⟨hfl.ge hy.neg this.1, hfl.le hy this.2⟩

theorem Rounds.abs_ge {p : ℕ} {fl : ℝ → ℝ} (hfl : Rounds p fl) {x y : ℝ} (hy : IsFloat p y) (h : y ≤ |x|) : y ≤ |fl x| := by
  rcases le_abs.1 h with h | h
  · exact (hfl.ge hy h).trans (le_abs_self _)
  · have := hfl.le hy.neg (show x ≤ -y by linarith)
    exact le_trans (by linarith) (neg_le_abs _)

theorem isFloat_pow {p : ℕ} (hp : 1 ≤ p) (e : ℤ) : IsFloat p ((2 : ℝ) ^ e) :=
  ⟨1, e, by rw [abs_one]; exact one_lt_pow₀ (by norm_num) (by omega), by simp⟩

/-- The rounding of a safe argument is a number of the format. -/
theorem Safe.rounded {p : ℕ} {lo hi : ℤ} {fl : ℝ → ℝ} (hp : 1 ≤ p) (hr : lo + p ≤ hi) (hfl : Rounds p fl) {x : ℝ}
    (h : Safe p lo hi x) : InFormat p lo hi (fl x) := by
  by_cases hs : (2 : ℝ) ^ (lo + p - 1) ≤ |x|
  · exact (hfl x).1.inFormat (hfl.abs_ge (isFloat_pow hp _) hs)
      (lt_of_le_of_lt (hfl.abs_le (isFloat_largest p hi) h.1) (largest_lt p hi))
  · have hf := small_isFloat hp (not_le.1 hs) (h.2.resolve_left hs)
    rw [hfl.self hf]
    exact h.inFormat hp hr hf

/-- A rounding with limits agrees with one without them on all safe arguments. -/
theorem RoundsIn.exists_rounds {p : ℕ} {lo hi : ℤ} {fl fl0 : ℝ → ℝ} (hp : 1 ≤ p) (hr : lo + p ≤ hi)
    (hfl : RoundsIn p lo hi fl) (h0 : Rounds p fl0) :
    ∃ fl1, Rounds p fl1 ∧ ∀ x, Safe p lo hi x → fl x = fl1 x := by
  classical
  refine ⟨fun x => if Safe p lo hi x then fl x else fl0 x, fun x => ?_, fun x hx => by simp [hx]⟩
  dsimp only
  split
  next hx =>
    refine ⟨(hfl x hx.1).1.isFloat, fun y hy => ((hfl x hx.1).2 _ (hx.rounded hp hr h0)).trans ((h0 x).2 y hy)⟩
  next hx => exact h0 x

theorem RoundsIn.self {p : ℕ} {lo hi : ℤ} {fl : ℝ → ℝ} (hfl : RoundsIn p lo hi fl) {x : ℝ} (h : InFormat p lo hi x) :
    fl x = x := by
  have h1 := (hfl x h.abs_le).2 x h
  rw [sub_self, abs_zero] at h1
  have := abs_nonpos_iff.1 h1
  linarith

/-- The error of rounding with limits. -/
theorem RoundsIn.error {p : ℕ} {lo hi : ℤ} {fl fl0 : ℝ → ℝ} (hp : 1 ≤ p) (hr : lo + p ≤ hi)
    (hfl : RoundsIn p lo hi fl) (h0 : Rounds p fl0) {x : ℝ} (hx : |x| ≤ largest p hi) :
    |fl x - x| ≤ |x| / 2 ^ p + 2 ^ (lo - 1) := by
  have hg : (0 : ℝ) < 2 ^ lo := by positivity
  by_cases hs : (2 : ℝ) ^ (lo + p - 1) ≤ |x|
  · have h1 := (hfl x hx).2 _ (Safe.rounded hp hr h0 ⟨hx, .inl hs⟩)
    have h2 := h0.relative hp x
    have : (0 : ℝ) < 2 ^ (lo - 1) := by positivity
    linarith
  · rw [not_le] at hs
    have hk : |round (x / 2 ^ lo)| ≤ 2 ^ (p - 1) := by
      refine round_abs_le ?_
      rw [abs_div, abs_of_pos hg, div_le_iff₀ hg]
      refine hs.le.trans (le_of_eq ?_)
      push_cast
      rw [← zpow_natCast, ← zpow_add₀ (by norm_num)]
      congr 1
      omega
    have hin : InFormat p lo hi (round (x / 2 ^ lo) * 2 ^ lo) := by
      refine ⟨_, lo, lt_of_le_of_lt hk (pow_lt_pow_right₀ (by norm_num) (by omega)), le_rfl, hr, rfl⟩
    have h1 := (hfl x hx).2 _ hin
    have h3 := abs_sub_round (x / 2 ^ lo)
    have h4 : (round (x / 2 ^ lo) : ℝ) * 2 ^ lo - x = -((x / 2 ^ lo - round (x / 2 ^ lo)) * 2 ^ lo) := by
      field_simp
      ring
    rw [h4, abs_neg, abs_mul, abs_of_pos hg] at h1
    have h5 : (2 : ℝ) ^ (lo - 1) = 1 / 2 * 2 ^ lo := by rw [zpow_sub₀ (by norm_num)]; ring
    have h6 : 0 ≤ |x| / 2 ^ p := by positivity
    rw [h5]
    nlinarith

theorem RoundsDouble.agrees {fl : ℝ → ℝ} (hfl : RoundsDouble fl) :
    ∃ fl1, Rounds 53 fl1 ∧ ∀ x, Safe 53 (-1074) 1024 x → fl x = fl1 x :=
  RoundsIn.exists_rounds (by norm_num) (by norm_num) hfl (rounds_double.2 round53_nearest)

theorem RoundsFloat.agrees {fl : ℝ → ℝ} (hfl : RoundsFloat fl) :
    ∃ fl1, Rounds 24 fl1 ∧ ∀ x, Safe 24 (-149) 128 x → fl x = fl1 x :=
  RoundsIn.exists_rounds (by norm_num) (by norm_num) hfl (rounds_single.2 round24_nearest)

theorem RoundsDouble.error {fl : ℝ → ℝ} (hfl : RoundsDouble fl) {x : ℝ} (hx : |x| ≤ largest 53 1024) :
    |fl x - x| ≤ |x| / 2 ^ 53 + 2 ^ (-1075 : ℤ) := by
  have := RoundsIn.error (by norm_num) (by norm_num) hfl (rounds_double.2 round53_nearest) hx
  norm_num at this ⊢
  exact this

theorem RoundsFloat.error {fl : ℝ → ℝ} (hfl : RoundsFloat fl) {x : ℝ} (hx : |x| ≤ largest 24 128) :
    |fl x - x| ≤ |x| / 2 ^ 24 + 2 ^ (-150 : ℤ) := by
  have := RoundsIn.error (by norm_num) (by norm_num) hfl (rounds_single.2 round24_nearest) hx
  norm_num at this ⊢
  exact this

/-- There are such roundings. -/
theorem exists_roundsIn {p : ℕ} {lo hi : ℤ} (hr : lo + p ≤ hi) : ∃ fl, RoundsIn p lo hi fl := by
  classical
  have hfin (x : ℝ) : ∃ z, InFormat p lo hi z ∧ ∀ y, InFormat p lo hi y → |z - x| ≤ |y - x| := by
    have hs : {z | InFormat p lo hi z}.Finite := by
      refine Set.Finite.subset (Set.Finite.image (fun q : ℤ × ℤ => (q.1 : ℝ) * 2 ^ q.2)
        ((Set.finite_Icc (-2 ^ p : ℤ) (2 ^ p)).prod (Set.finite_Icc lo hi))) ?_
      rintro z ⟨m, e, hm, h1, h2, rfl⟩
      have := _root_.abs_lt.1 hm
      exact ⟨(m, e), ⟨⟨by linarith, by linarith⟩, ⟨h1, by simp only; omega⟩⟩, rfl⟩
    obtain ⟨z, hz, hm⟩ := Set.exists_min_image _ (fun z => |z - x|) hs ⟨0, inFormat_zero hr⟩
    exact ⟨z, hz, hm⟩
  choose fl h using hfin
  exact ⟨fl, fun x _ => h x⟩

end Ecl.Spec
