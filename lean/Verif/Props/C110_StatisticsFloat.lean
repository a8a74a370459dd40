import Verif.Lemmas.StatisticsFloat
import Mathlib.Tactic.NormNum

/-! # C110: cumulative statistics in floating point arithmetic -/
set_option autoImplicit false
set_option linter.unusedSimpArgs false

namespace Ecl.Props
open Ecl Ecl.CumStatFloat Ecl.Spec
open Ecl.CumStat (Op)

/-- **C110.** The number of values is exact up to `2^p` of them. -/
theorem C110_count_partial {p : ℕ} {fl : ℝ → ℝ} (hp : 1 ≤ p) (hfl : Rounds p fl) (garbage : State) (ops : List Op)
    (h : (sinceClear ops).length ≤ 2 ^ p) : size (run fl garbage ops) = (sinceClear ops).length := by
  obtain ⟨g, hg⟩ := run_pushes fl garbage ops
  rw [size, hg]
  exact count_pushes hfl hp g _ h

/-- **C110.** The mean is never outside the range of the data and the variance never negative; equal values give
their value and variance 0: for any number of values. -/
theorem C110_between {p : ℕ} {fl : ℝ → ℝ} (hp : 2 ≤ p) (hfl : Rounds p fl) (garbage : State) (ops : List Op) (lo hi : ℝ)
    (h : ∀ x ∈ sinceClear ops, IsFloat p x ∧ lo ≤ x ∧ x ≤ hi) :
    0 ≤ variance fl (run fl garbage ops) ∧
    (sinceClear ops ≠ [] → lo ≤ mean (run fl garbage ops) ∧ mean (run fl garbage ops) ≤ hi) ∧
    (lo = hi → variance fl (run fl garbage ops) = 0) ∧
    (sinceClear ops = [] → mean (run fl garbage ops) = 0) := by
  obtain ⟨g, hg⟩ := run_pushes fl garbage ops
  generalize sinceClear ops = l at *
  rw [hg]
  have hin := inside_pushes hfl hp g l h
  generalize l.foldl (pushBack fl) (clear g) = s at *
  have f0 : fl 0 = 0 := hfl.self (isFloat_zero p)
  have hv : 0 ≤ variance fl s ∧ (lo = hi → variance fl s = 0) := by
    unfold variance
    split
    next hn =>
      have hl : 1 < l.length := by
        by_contra hc
        rcases Nat.lt_or_ge l.length 1 with h0 | h0
        · have := hin.none (List.length_eq_zero_iff.1 (by omega))
          linarith
        · have := hin.one (by omega)
          linarith
      obtain ⟨h1, h2⟩ := hin.many hl
      obtain ⟨_, _, _, _, h3, h4⟩ := hin.data (by rintro rfl; simp at hl)
      rw [h2]
      refine ⟨hfl.ge (isFloat_zero p) (div_nonneg h3 (hfl.ge (isFloat_zero p) (by linarith))), fun e => ?_⟩
      rw [h4 e, zero_div, f0]
    next => exact ⟨le_rfl, fun _ => rfl⟩
  refine ⟨hv.1, fun hl => ?_, hv.2, fun hl => ?_⟩
  · obtain ⟨h1, _, h3, h4, _, _⟩ := hin.data hl
    have hn : s.n > 0 := by
      rcases Nat.lt_or_ge 1 l.length with h0 | h0
      · have := (hin.many h0).1
        linarith
      · have := List.length_pos_iff.2 hl
        have := hin.one (by omega)
        linarith
    rw [mean, if_pos hn, h1]
    exact ⟨h3, h4⟩
  · rw [mean, if_neg (by rw [hin.none hl]; simp)]

/-- **C110.** Up to `2^p / 100` values of absolute value at most `M`: the mean is that of the values up to
`M (n + 11) / 2^(p+1)`, the variance up to `M^2 (6 n + 84) / 2^p`. -/
theorem C110_error {p : ℕ} {fl : ℝ → ℝ} (hp : 11 ≤ p) (hfl : Rounds p fl) (garbage : State) (ops : List Op) (M : ℝ)
    (hM : 0 ≤ M) (h : ∀ x ∈ sinceClear ops, IsFloat p x ∧ |x| ≤ M) (hlen : 100 * (sinceClear ops).length ≤ 2 ^ p) :
    |mean (run fl garbage ops) - average (sinceClear ops)| ≤ M * ((sinceClear ops).length + 11) / 2 ^ (p + 1) ∧
    |variance fl (run fl garbage ops) - sampleVariance (sinceClear ops)| ≤
      M ^ 2 * (6 * (sinceClear ops).length + 84) / 2 ^ p := by
  obtain ⟨g, hg⟩ := run_pushes fl garbage ops
  generalize sinceClear ops = l at *
  rw [hg]
  have hc := close_pushes hfl hp g l h hlen
  generalize l.foldl (pushBack fl) (clear g) = s at *
  by_cases hl : l = []
  · subst hl
    have hn : s.n = 0 := by simpa using hc.count
    rw [mean, variance, if_neg (by rw [hn]; norm_num), if_neg (by rw [hn]; norm_num), sampleVariance, if_pos (by simp), average]
    simp only [List.sum_nil, List.length_nil, Nat.cast_zero, div_zero, sub_zero, abs_zero]
    constructor <;> positivity
  have hpos := List.length_pos_iff.2 hl
  have hn := hc.count
  constructor
  · rw [mean, if_pos (by rw [hn]; exact_mod_cast hpos), hc.same hl]
    refine (hc.mean hl).trans (le_of_eq ?_)
    rw [pow_succ]
    field_simp
  · by_cases h1 : l.length = 1
    · rw [variance, if_neg (by rw [hn, h1]; simp), sampleVariance, if_pos h1.le, sub_zero, abs_zero]
      positivity
    · have h2 : 1 < l.length := by omega
      rw [variance, if_pos (by rw [hn]; exact_mod_cast h2), sampleVariance, if_neg (by omega), hc.same' h2, hn]
      have e : fl ((l.length : ℝ) - 1) = l.length - 1 := by
        have := hfl.self (isFloat_nat (p := p) (n := l.length - 1) (by omega) (by omega))
        rw [Nat.cast_sub hpos, Nat.cast_one] at this
        exact this
      rw [e]
      exact variance_error hfl hp h2 hlen (hc.square hl) (deviation_bound l fun x hx => (h x hx).2)

/-- **C110 fails.** The number of values: one value more than `2^p` is never counted right, and where a half is
rounded to even, as it is by default, the count stays at `2^p` for any number of values. -/
theorem C110_fails_count {p : ℕ} {fl : ℝ → ℝ} (hp : 1 ≤ p) (hfl : Rounds p fl) (garbage : State) (xs : List ℝ)
    (h : 2 ^ p < xs.length) :
    (xs.length = 2 ^ p + 1 → size (run fl garbage (xs.map .push)) ≠ xs.length) ∧
    (fl (2 ^ p + 1) = 2 ^ p → size (run fl garbage (xs.map .push)) = 2 ^ p) := by
  have e : run fl garbage (xs.map .push) = xs.foldl (pushBack fl) (clear garbage) := by
    rw [run, List.foldl_map]
  have e2 : xs.foldl (pushBack fl) (clear garbage) =
      (xs.drop (2 ^ p)).foldl (pushBack fl) ((xs.take (2 ^ p)).foldl (pushBack fl) (clear garbage)) := by
    rw [← List.foldl_append, List.take_append_drop]
  have hl : (xs.take (2 ^ p)).length = 2 ^ p := by rw [List.length_take]; omega
  have hn := count_pushes hfl hp garbage (xs.take (2 ^ p)) hl.le
  rw [hl] at hn
  push_cast at hn
  rw [size, e, e2]
  constructor
  · intro hx
    obtain ⟨x, hx'⟩ : ∃ x, xs.drop (2 ^ p) = [x] := List.length_eq_one_iff.1 (by rw [List.length_drop]; omega)
    rw [hx', List.foldl_cons, List.foldl_nil, push_n, hn, hx]
    push_cast
    intro hc
    rcases gap hp (hfl (2 ^ p + 1)).1 with h | h <;> linarith
  · exact fun hd => stuck hd _ _ hn

/-- **C110 fails.** The mean of more values: after `2^p` ones and half as many zeros it is a half instead of two
thirds. -/
theorem C110_fails_mean {p : ℕ} {fl : ℝ → ℝ} (hp : 2 ≤ p) (hfl : Rounds p fl) (hd : fl (2 ^ p + 1) = 2 ^ p)
    (garbage : State) :
    mean (run fl garbage ((List.replicate (2 ^ p) (1 : ℝ) ++ List.replicate (2 ^ (p - 1)) (0 : ℝ)).map .push)) = 1 / 2 ∧
    average (List.replicate (2 ^ p) (1 : ℝ) ++ List.replicate (2 ^ (p - 1)) (0 : ℝ)) = 2 / 3 := by
  obtain ⟨q, rfl⟩ : ∃ q, p = q + 1 := ⟨p - 1, by omega⟩
  constructor
  · rw [run, List.foldl_map]
    change mean ((List.replicate (2 ^ (q + 1)) (1 : ℝ) ++ List.replicate (2 ^ q) (0 : ℝ)).foldl (pushBack fl) (clear garbage)) = 1 / 2
    rw [List.foldl_append]
    have hn := count_pushes hfl (by omega) garbage (List.replicate (2 ^ (q + 1)) 1) (by simp)
    have hi := inside_pushes hfl hp (lo := 1) (hi := 1) garbage (List.replicate (2 ^ (q + 1)) 1) (by
      intro x hx
      rw [List.eq_of_mem_replicate hx]
      exact ⟨by simpa using isFloat_nat (p := q + 1) (n := 1) (by omega) Nat.one_le_two_pow, le_rfl, le_rfl⟩)
    have hpos : (List.replicate (2 ^ (q + 1)) (1 : ℝ)) ≠ [] := by simp
    obtain ⟨h1, _, h3, h4, _, _⟩ := hi.data hpos
    rw [List.length_replicate] at hn
    push_cast at hn
    obtain ⟨f1, f2, f3⟩ := fade hp hfl hd _ hn (le_antisymm h4 h3) h1 (2 ^ q) le_rfl
    rw [mean, if_pos (by rw [f1]; positivity), f3, f2]
    push_cast
    rw [pow_succ]
    field_simp
    norm_num
  · unfold average
    simp only [List.sum_append, List.sum_replicate, List.length_append, List.length_replicate, Nat.add_sub_cancel,
      smul_eq_mul, nsmul_eq_mul, mul_one, mul_zero, add_zero]
    push_cast
    rw [pow_succ]
    field_simp
    norm_num

/-- Statistics of double values: 7, clear, 1, 2, 6. -/
example (g : State) : |mean (run round53 g [.push 7, .clear, .push 1, .push 2, .push 6]) - 3| ≤ 6 * (3 + 11) / 2 ^ 54 := by
  have f : ∀ n : ℕ, n ≤ 6 → IsFloat 53 n := fun n h => isFloat_nat (by norm_num) (h.trans (by norm_num))
  have := (C110_error (p := 53) (by norm_num) (rounds_double.2 round53_nearest) g
    [.push 7, .clear, .push 1, .push 2, .push 6] 6 (by norm_num) (by
      intro x hx
      simp [sinceClear] at hx
      rcases hx with rfl | rfl | rfl
      · exact ⟨by simpa using f 1 (by norm_num), by norm_num⟩
      · exact ⟨by simpa using f 2 (by norm_num), by norm_num⟩
      · exact ⟨by simpa using f 6 (by norm_num), by norm_num⟩) (by simp [sinceClear])).1
  simpa [sinceClear, average, show (1 + (2 + 6) : ℝ) / 3 = 3 by norm_num] using this

/-- There is such a rounding of float. -/
example : ∃ fl, Rounds 24 fl ∧ fl (2 ^ 24 + 1) = 2 ^ 24 :=
  ⟨_, rounds_down (by norm_num) (rounds_single.2 round24_nearest), if_pos rfl⟩

end Ecl.Props
