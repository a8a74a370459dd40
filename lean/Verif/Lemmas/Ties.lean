import Verif.Spec.Ties
import Verif.Lemmas.Range

/-! # Rounding to numbers that are near, and of ties -/
set_option autoImplicit false

namespace Ecl.Spec

/-- What is nearer than half a spacing is rounded there. -/
theorem Rounds.near {p : ℕ} {fl : ℝ → ℝ} (hfl : Rounds (p + 1) fl) {x : ℝ} {k E : ℤ} (h1 : 2 ^ p < k)
    (h2 : k ≤ 2 ^ (p + 1)) (h : |x - k * (2 : ℝ) ^ E| < (2 : ℝ) ^ E / 2) : fl x = k * (2 : ℝ) ^ E := by
  have hg : (0 : ℝ) < 2 ^ E := by positivity
  have hk0 : |k| ≤ 2 ^ (p + 1) := by rw [abs_of_pos (lt_trans (by positivity) h1)]; exact h2
  have hk : IsFloat (p + 1) (k * (2 : ℝ) ^ E) := isFloat_grid (by omega) hk0
  have h3 := (hfl x).2 _ hk
  rw [abs_sub_comm] at h
  have h4 : |fl x - k * (2 : ℝ) ^ E| < 2 ^ E := by
    have := abs_sub_le (fl x) x (k * (2 : ℝ) ^ E)
    rw [abs_sub_comm x] at this
    linarith
  have hk1 : (2 : ℝ) ^ p + 1 ≤ k := by exact_mod_cast h1
  have h5 : (2 : ℝ) ^ (E + p) ≤ |fl x| := by
    rw [zpow_add₀ (by norm_num), zpow_natCast]
    have := (abs_lt.1 h4).1
    refine le_trans ?_ (le_abs_self _)
    nlinarith
  obtain ⟨m, hm⟩ := (hfl x).1.grid h5
  rw [show E + p + 1 - ((p + 1 : ℕ) : ℤ) = E by push_cast; ring] at hm
  rw [hm] at h4 ⊢
  rw [← sub_mul, abs_mul, abs_of_pos hg] at h4
  have h6 : |((m - k : ℤ) : ℝ)| < 1 := by push_cast; nlinarith
  have h7 : |m - k| < 1 := by exact_mod_cast h6
  have : m = k := by have := abs_lt.1 h7; omega
  rw [this]

/-- The same at the smallest significand. -/
theorem Rounds.near_pow {p : ℕ} {fl : ℝ → ℝ} (hfl : Rounds (p + 1) fl) {x : ℝ} {E : ℤ}
    (h : |x - (2 : ℝ) ^ E| < (2 : ℝ) ^ E / (4 * 2 ^ p)) : fl x = (2 : ℝ) ^ E := by
  have hx : (2 : ℝ) ^ E = (2 ^ (p + 1) : ℤ) * (2 : ℝ) ^ (E - (p + 1)) := by
    push_cast
    rw [← zpow_natCast, ← zpow_add₀ (by norm_num)]
    congr 1; push_cast; ring
  rw [hx] at h ⊢
  refine hfl.near (by rw [pow_succ]; have : (0 : ℤ) < 2 ^ p := by positivity
                      linarith) le_rfl (h.trans_le ?_)
  push_cast
  rw [pow_succ]
  field_simp
  norm_num

/-- A halfway case of numbers of `p + 1` bits has no nearer number than half a spacing. -/
theorem tie_far {p : ℕ} {k e : ℤ} (hodd : k % 2 = 1) (h1 : 2 ^ p < |k|) {y : ℝ} (hy : IsFloat p y) :
    (2 : ℝ) ^ e ≤ |y - k * (2 : ℝ) ^ e| := by
  have hg : (0 : ℝ) < 2 ^ e := by positivity
  rcases le_or_gt ((2 : ℝ) ^ (e + p)) |y| with h | h
  · obtain ⟨m, hm⟩ := hy.grid h
    rw [show e + p + 1 - (p : ℤ) = e + 1 by ring] at hm
    rw [hm, zpow_add₀ (by norm_num), zpow_one, show (m : ℝ) * (2 ^ e * 2) - k * 2 ^ e = ((2 * m - k : ℤ) : ℝ) * 2 ^ e by
      push_cast; ring, abs_mul, abs_of_pos hg]
    have : (1 : ℤ) ≤ |2 * m - k| := Int.one_le_abs (by omega)
    have : (1 : ℝ) ≤ |((2 * m - k : ℤ) : ℝ)| := by exact_mod_cast this
    nlinarith
  · have h2 : (2 : ℝ) ^ p + 1 ≤ |(k : ℝ)| := by exact_mod_cast h1
    have h3 := abs_sub_abs_le_abs_sub ((k : ℝ) * (2 : ℝ) ^ e) y
    rw [abs_mul, abs_of_pos hg, abs_sub_comm] at h3
    rw [zpow_add₀ (by norm_num), zpow_natCast] at h
    nlinarith

/-- The odd part of a number is unique. -/
theorem odd_unique {k m e f : ℤ} (hk : k % 2 = 1) (hm : m % 2 = 1) (h : (k : ℝ) * 2 ^ e = m * (2 : ℝ) ^ f) :
    k = m ∧ e = f := by
  have key : ∀ {k m e f : ℤ}, k % 2 = 1 → m % 2 = 1 → (k : ℝ) * 2 ^ e = m * (2 : ℝ) ^ f → e ≤ f → k = m ∧ e = f := by
    intro k m e f hk hm h hle
    obtain ⟨n, rfl⟩ : ∃ n : ℕ, f = e + n := ⟨(f - e).toNat, by omega⟩
    rw [zpow_add₀ (by norm_num), zpow_natCast] at h
    have hg : (0 : ℝ) < 2 ^ e := by positivity
    have h2 : (k : ℝ) = m * 2 ^ n := by
      have : (k : ℝ) * 2 ^ e = (m * 2 ^ n) * 2 ^ e := by rw [h]; ring
      exact mul_right_cancel₀ hg.ne' this
    have h3 : k = m * 2 ^ n := by exact_mod_cast h2
    cases n with
    | zero => simp at h3; exact ⟨h3, by simp⟩
    | succ n => rw [pow_succ, show m * (2 ^ n * 2) = 2 * (m * 2 ^ n) by ring] at h3; omega
  rcases le_total e f with hle | hle
  · exact key hk hm h hle
  · have := key hm hk h.symm hle
    exact ⟨this.1.symm, this.2.symm⟩

/-- There is such a rounding. -/
theorem exists_tiesToEven {p : ℕ} {fl0 : ℝ → ℝ} (hp : 1 ≤ p) (h0 : Rounds p fl0) :
    ∃ fl, Rounds p fl ∧ TiesToEven p fl := by
  classical
  let P : ℝ → ℤ × ℤ × ℤ → Prop := fun x t => (t.2.1 = 1 ∨ t.2.1 = -1) ∧ 2 ^ p < |4 * t.1 + t.2.1| ∧
    |4 * t.1 + t.2.1| < 2 ^ (p + 1) ∧ x = (4 * t.1 + t.2.1 : ℤ) * (2 : ℝ) ^ t.2.2
  let fl : ℝ → ℝ := fun x => if h : ∃ t, P x t then (4 * h.choose.1 : ℤ) * (2 : ℝ) ^ h.choose.2.2 else fl0 x
  refine ⟨fl, fun x => ?_, ?_⟩
  · by_cases h : ∃ t, P x t
    · have hx : fl x = (4 * h.choose.1 : ℤ) * (2 : ℝ) ^ h.choose.2.2 := dif_pos h
      obtain ⟨hs, h1, h2, h3⟩ := h.choose_spec
      generalize h.choose = t at *
      obtain ⟨j, s, e⟩ := t
      dsimp only at *
      have hpow : (2 : ℤ) ^ (p + 1) = 2 * 2 ^ p := by ring
      have heven : (2 : ℤ) ^ p = 2 * 2 ^ (p - 1) := by
        conv_lhs => rw [show p = p - 1 + 1 by omega]
        ring
      refine ⟨?_, fun y hy => ?_⟩
      · rw [hx, show ((4 * j : ℤ) : ℝ) * (2 : ℝ) ^ e = ((2 * j : ℤ) : ℝ) * 2 ^ (e + 1) by
          rw [zpow_add₀ (by norm_num)]; push_cast; ring]
        refine isFloat_grid hp ?_
        have h4 := abs_lt.1 h2
        rw [abs_le]
        rcases hs with rfl | rfl <;> constructor <;> omega
      · have h4 := tie_far (k := 4 * j + s) (e := e) (by rcases hs with rfl | rfl <;> omega) h1 hy
        rw [hx, h3]
        refine le_trans (le_of_eq ?_) h4
        rw [← sub_mul, abs_mul, abs_of_pos (by positivity : (0 : ℝ) < 2 ^ e)]
        rcases hs with rfl | rfl <;> push_cast <;> norm_num
    · have hx : fl x = fl0 x := dif_neg h
      rw [hx]
      exact h0 x
  · intro j s e hs h1 h2
    have h : ∃ t, P ((4 * j + s : ℤ) * (2 : ℝ) ^ e) t := ⟨(j, s, e), hs, h1, h2, rfl⟩
    have hx : fl ((4 * j + s : ℤ) * (2 : ℝ) ^ e) = (4 * h.choose.1 : ℤ) * (2 : ℝ) ^ h.choose.2.2 := dif_pos h
    obtain ⟨hs', h1', h2', h3'⟩ := h.choose_spec
    rw [hx]
    generalize h.choose = t at *
    obtain ⟨j', s', e'⟩ := t
    dsimp only at *
    obtain ⟨e1, e2⟩ := odd_unique (by rcases hs with rfl | rfl <;> omega) (by rcases hs' with rfl | rfl <;> omega) h3'
    rw [e2]
    congr 2
    rcases hs with rfl | rfl <;> rcases hs' with rfl | rfl <;> omega

end Ecl.Spec

namespace Ecl.Spec

/-- What is above by less than half a spacing is rounded down. -/
theorem Rounds.near_above {p : ℕ} {fl : ℝ → ℝ} (hfl : Rounds (p + 1) fl) {x : ℝ} {k E : ℤ} (h1 : 2 ^ p ≤ k)
    (h2 : k ≤ 2 ^ (p + 1)) (h3 : k * (2 : ℝ) ^ E ≤ x) (h : x < k * (2 : ℝ) ^ E + (2 : ℝ) ^ E / 2) : fl x = k * (2 : ℝ) ^ E := by
  have hg : (0 : ℝ) < 2 ^ E := by positivity
  have hk0 : |k| ≤ 2 ^ (p + 1) := by rw [abs_of_pos (lt_of_lt_of_le (by positivity) h1)]; exact h2
  have hk : IsFloat (p + 1) (k * (2 : ℝ) ^ E) := isFloat_grid (by omega) hk0
  have h4 := hfl.ge hk h3
  have h5 := (hfl x).2 _ hk
  have h6 := (_root_.abs_le.1 h5).2
  rw [abs_of_nonpos (by linarith)] at h6
  have hk1 : (2 : ℝ) ^ p ≤ k := by exact_mod_cast h1
  have h7 : (2 : ℝ) ^ (E + p) ≤ |fl x| := by
    rw [zpow_add₀ (by norm_num), zpow_natCast]
    refine le_trans ?_ (le_abs_self _)
    nlinarith
  obtain ⟨m, hm⟩ := (hfl x).1.grid h7
  rw [show E + p + 1 - ((p + 1 : ℕ) : ℤ) = E by push_cast; ring] at hm
  rw [hm] at h4 h6 ⊢
  have h8 : (k : ℝ) ≤ m := le_of_mul_le_mul_right h4 hg
  have h9 : (m : ℝ) < k + 1 := by nlinarith
  have : k ≤ m := by exact_mod_cast h8
  have : m < k + 1 := by exact_mod_cast h9
  have : m = k := by omega
  rw [this]

end Ecl.Spec
