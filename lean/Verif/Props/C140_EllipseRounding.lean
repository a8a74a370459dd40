import Verif.Lemmas.EllipsoidFloat

/-!
# C140: the planar covariance ellipse with rounding

`lengths fl a b c d` are the two lengths that the class has for the matrix `[a b; c d]` (`none` is NaN), `axes fl a b c d`
its two columns.  All theorems are for any number of bits: 24 for float, 53 for double.
-/
set_option autoImplicit false

namespace Ecl.Props
open Ecl Ecl.EllipsoidFloat Ecl.Spec Real

namespace C140

theorem posDef {a b d : ℝ} (ha : 0 < a) (hdet : b * b < a * d) : PosDef2 a b d := by
  intro u v huv
  have h1 : a * (a * u * u + 2 * b * u * v + d * v * v) = (a * u + b * v) ^ 2 + (a * d - b * b) * (v * v) := by ring
  have h2 : 0 < (a * u + b * v) ^ 2 + (a * d - b * b) * (v * v) := by
    by_cases hv : v = 0
    · subst hv
      have hu : u ≠ 0 := fun h => huv (by rw [h])
      have : a * u ≠ 0 := mul_ne_zero ha.ne' hu
      have := sq_pos_of_ne_zero this
      simpa using this
    · have := mul_self_pos.2 hv
      have : 0 < (a * d - b * b) * (v * v) := mul_pos (by linarith) this
      nlinarith [sq_nonneg (a * u + b * v)]
  rw [← h1] at h2
  exact pos_of_mul_pos_right h2 ha.le |>.trans_le le_rfl

/-- Two different eigenvalues have the sum of the trace. -/
theorem eigen {a b d k0 k1 : ℝ} (h0 : Eigenvalue2 a b d k0) (h1 : Eigenvalue2 a b d k1) (hlt : k1 < k0) :
    k0 + k1 = a + d ∧ k0 * k1 = a * d - b * b ∧ (k0 - k1) ^ 2 = (a - d) ^ 2 + 4 * (b * b) := by
  unfold Eigenvalue2 at h0 h1
  have hs : k0 + k1 = a + d := by
    have : (k0 - k1) * (k0 + k1 - (a + d)) = 0 := by linear_combination h0 - h1
    rcases mul_eq_zero.1 this with h | h <;> linarith
  have hp : k0 * k1 = a * d - b * b := by
    have hk : k1 = a + d - k0 := by linarith
    rw [hk]; linear_combination -h0
  refine ⟨hs, hp, ?_⟩
  linear_combination (k0 + k1 + a + d) * hs - 4 * hp

theorem minor_pos {a b d k0 k1 : ℝ} (h : PosDef2 a b d) (h0 : Eigenvalue2 a b d k0) (h1 : Eigenvalue2 a b d k1)
    (hlt : k1 < k0) : 0 < k1 := by
  obtain ⟨ha, hd, hdet⟩ := Ellipsoid.posDef_coeffs h
  obtain ⟨hs, hp, -⟩ := eigen h0 h1 hlt
  have hk0 : 0 < k0 := by linarith
  exact pos_of_mul_pos_right (by rw [hp]; exact hdet) hk0.le |>.trans_le le_rfl

/-- The facts about the sizes. -/
theorem sizes {p : ℕ} {k0 k1 : ℝ} (hk1 : 0 < k1) (hlt : k1 < k0) (hgap : 2 ^ 20 * (k0 + k1) ^ 2 ≤ 2 ^ p * (k0 - k1) ^ 2) :
    ∃ R, R = (k0 + k1) ^ 2 / (2 ^ p * (k0 - k1)) ∧ (k0 + k1) / 2 ^ p ≤ R ∧ R ≤ (k0 - k1) / 2 ^ 20 := by
  refine ⟨_, rfl, ?_, ?_⟩
  · rw [div_le_div_iff₀ (by positivity) (mul_pos (by positivity) (by linarith))]
    have : (k0 + k1) * (k0 - k1) ≤ (k0 + k1) * (k0 + k1) := mul_le_mul_of_nonneg_left (by linarith) (by linarith)
    have hp : (0 : ℝ) < 2 ^ p := by positivity
    nlinarith
  · rw [div_le_div_iff₀ (mul_pos (by positivity) (by linarith)) (by positivity)]
    nlinarith

end C140

/-- **C140.** Without rounding, for every matrix, symmetric or not: both lengths are numbers exactly if the matrix has real
eigenvalues that are not negative (and then the squares of the lengths are these), and the first one is a number exactly
if the matrix has real eigenvalues that are not both negative. -/
theorem C140_exact (a b c d : ℝ) :
    ((∃ l0 l1, lengths id a b c d = (some l0, some l1)) ↔
      ∃ k0 k1, 0 ≤ k0 ∧ 0 ≤ k1 ∧ k0 + k1 = a + d ∧ k0 * k1 = a * d - b * c) ∧
    (∀ l0 l1, lengths id a b c d = (some l0, some l1) → 0 ≤ l1 ∧ l1 ≤ l0 ∧ l0 ^ 2 + l1 ^ 2 = a + d ∧
      l0 ^ 2 * l1 ^ 2 = a * d - b * c) ∧
    ((lengths id a b c d).1 ≠ none ↔ ∃ k0 k1, 0 ≤ k0 ∧ k0 + k1 = a + d ∧ k0 * k1 = a * d - b * c) := by
  obtain ⟨y, hy⟩ : ∃ y, y = (a + d) * (a + d) / 4 - a * d + b * c := ⟨_, rfl⟩
  have hsp : spread id a b c d = root id y := by rw [hy]; rfl
  have no : y < 0 → ∀ k0 k1, k0 + k1 = a + d → k0 * k1 = a * d - b * c → False := by
    intro h k0 k1 hs hp
    nlinarith [sq_nonneg (k0 - k1), show y = (k0 - k1) ^ 2 / 4 by rw [hy, ← hs]; linear_combination hp]
  rcases lt_or_ge y 0 with hneg | hpos
  · have hl : lengths id a b c d = (none, none) := by rw [lengths, hsp, root_none hneg]; rfl
    rw [hl]
    refine ⟨⟨fun ⟨_, _, h⟩ => (by simp at h), fun ⟨k0, k1, _, _, h1, h2⟩ => (no hneg k0 k1 h1 h2).elim⟩,
      fun _ _ h => (by simp at h), ⟨fun h => (h rfl).elim, fun ⟨k0, k1, _, h1, h2⟩ => (no hneg k0 k1 h1 h2).elim⟩⟩
  · have ht := sqrt_nonneg y
    have htt := mul_self_sqrt hpos
    have hl : lengths id a b c d = (root id ((a + d) / 2 + sqrt y), root id ((a + d) / 2 - sqrt y)) := by
      rw [lengths, hsp, root_some hpos]; rfl
    generalize sqrt y = t at *
    have hprod : ((a + d) / 2 + t) * ((a + d) / 2 - t) = a * d - b * c := by rw [hy] at htt; linear_combination -htt
    have uniq : ∀ k0 k1, k0 + k1 = a + d → k0 * k1 = a * d - b * c →
        (k0 = (a + d) / 2 + t ∧ k1 = (a + d) / 2 - t) ∨ (k1 = (a + d) / 2 + t ∧ k0 = (a + d) / 2 - t) := by
      intro k0 k1 hs hp
      have : (k0 - ((a + d) / 2 + t)) * (k0 - ((a + d) / 2 - t)) = 0 := by
        have hk : k1 = a + d - k0 := by linarith
        rw [hk] at hp
        linear_combination hprod - hp
      rcases mul_eq_zero.1 this with h | h
      · left; constructor <;> linarith
      · right; constructor <;> linarith
    have r0 : ∀ x : ℝ, root id x ≠ none ↔ 0 ≤ x := by
      intro x
      rcases lt_or_ge x 0 with h | h
      · rw [root_none h]; simp [h]
      · rw [root_some h]; simp [h]
    rw [hl]
    refine ⟨⟨?_, ?_⟩, ?_, ⟨?_, ?_⟩⟩
    · rintro ⟨l0, l1, h⟩
      simp only [Prod.mk.injEq] at h
      exact ⟨_, _, (r0 _).1 (by rw [h.1]; simp), (r0 _).1 (by rw [h.2]; simp), by ring, hprod⟩
    · rintro ⟨k0, k1, h0, h1, hs, hp⟩
      have : 0 ≤ (a + d) / 2 + t ∧ 0 ≤ (a + d) / 2 - t := by
        rcases uniq k0 k1 hs hp with ⟨e1, e2⟩ | ⟨e1, e2⟩
        · exact ⟨by linarith, by linarith⟩
        · exact ⟨by linarith, by linarith⟩
      exact ⟨_, _, by rw [root_some this.1, root_some this.2]⟩
    · intro l0 l1 h
      simp only [Prod.mk.injEq] at h
      have h0 := (r0 _).1 (by rw [h.1]; simp)
      have h1 := (r0 _).1 (by rw [h.2]; simp)
      rw [root_some h0, root_some h1] at h
      simp only [Option.some.injEq, id] at h
      rw [← h.1, ← h.2, sq_sqrt h0, sq_sqrt h1]
      exact ⟨sqrt_nonneg _, sqrt_le_sqrt (by linarith), by ring, hprod⟩
    · intro h
      exact ⟨_, _, (r0 _).1 h, by ring, hprod⟩
    · rintro ⟨k0, k1, h0, hs, hp⟩
      refine (r0 _).2 ?_
      rcases uniq k0 k1 hs hp with ⟨e1, e2⟩ | ⟨e1, e2⟩ <;> linarith

/-- A matrix that is not symmetric, and one without real eigenvalues. -/
example : (∃ l0 l1, lengths id 2 2 0 1 = (some l0, some l1)) ∧ (lengths id 0 1 (-1) 0).1 = none := by
  refine ⟨(C140_exact 2 2 0 1).1.2 ⟨2, 1, by norm_num, by norm_num, by norm_num, by norm_num⟩, ?_⟩
  by_contra h
  obtain ⟨k0, k1, -, h1, h2⟩ := (C140_exact 0 1 (-1) 0).2.2.1 h
  nlinarith [sq_nonneg (k0 - k1)]

namespace C140

theorem column_eigen {a b c d l k : ℝ} (h : c ≠ 0 ∨ b ≠ 0) (hs : l ^ 2 + k = a + d) (hp : l ^ 2 * k = a * d - b * c) :
    let v := normalized id (column id a b c d l)
    v.1 ^ 2 + v.2 ^ 2 = 1 ∧ a * v.1 + b * v.2 = l ^ 2 * v.1 ∧ c * v.1 + d * v.2 = l ^ 2 * v.2 := by
  obtain ⟨x, y, hv, hxy, h1, h2⟩ : ∃ x y, column id a b c d l = (x, y) ∧ x * x + y * y ≠ 0 ∧ a * x + b * y = l ^ 2 * x ∧
      c * x + d * y = l ^ 2 * y := by
    have hk : k = a + d - l ^ 2 := by linarith
    rw [hk] at hp
    by_cases hc : c = 0
    · subst hc
      have hb : b ≠ 0 := h.resolve_left (by simp)
      have e0 := mul_self_pos.2 hb
      refine ⟨b, l * l - a, by simp [column], (add_pos_of_pos_of_nonneg e0 (mul_self_nonneg _)).ne', by ring, ?_⟩
      linear_combination hp
    · have e0 := mul_self_pos.2 hc
      refine ⟨l * l - d, c, by simp [column, hc], (add_pos_of_nonneg_of_pos (mul_self_nonneg _) e0).ne', ?_, by ring⟩
      linear_combination hp
  intro v
  have e : v = (x / sqrt (x * x + y * y), y / sqrt (x * x + y * y)) := by simp only [v, hv, normalized, id]
  have n0 : 0 ≤ x * x + y * y := add_nonneg (mul_self_nonneg _) (mul_self_nonneg _)
  have n1 : sqrt (x * x + y * y) ≠ 0 := (sqrt_ne_zero n0).2 hxy
  rw [e]
  refine ⟨?_, ?_, ?_⟩
  · rw [div_pow, div_pow, ← add_div, sq_sqrt n0, ← pow_two, ← pow_two]
    exact div_self (by rw [pow_two, pow_two]; exact hxy)
  · show a * (x / _) + b * (y / _) = l ^ 2 * (x / _)
    rw [mul_div_assoc', mul_div_assoc', mul_div_assoc', ← add_div, h1]
  · show c * (x / _) + d * (y / _) = l ^ 2 * (y / _)
    rw [mul_div_assoc', mul_div_assoc', mul_div_assoc', ← add_div, h2]

end C140

/-- **C140.** Without rounding, for every matrix that is not diagonal, symmetric or not: if both lengths are numbers, the
axes are eigenvectors of length 1, each for the square of its length. -/
theorem C140_eigenvectors (a b c d l0 l1 : ℝ) (h : c ≠ 0 ∨ b ≠ 0) (hl : lengths id a b c d = (some l0, some l1)) :
    ∃ v0 v1, axes id a b c d = (some v0, some v1) ∧
      (v0.1 ^ 2 + v0.2 ^ 2 = 1 ∧ a * v0.1 + b * v0.2 = l0 ^ 2 * v0.1 ∧ c * v0.1 + d * v0.2 = l0 ^ 2 * v0.2) ∧
      (v1.1 ^ 2 + v1.2 ^ 2 = 1 ∧ a * v1.1 + b * v1.2 = l1 ^ 2 * v1.1 ∧ c * v1.1 + d * v1.2 = l1 ^ 2 * v1.2) := by
  obtain ⟨-, -, hs, hp⟩ := (C140_exact a b c d).2.1 l0 l1 hl
  refine ⟨_, _, by rw [axes, rawAxes, if_pos h, hl]; rfl, C140.column_eigen h hs hp,
    C140.column_eigen (k := l0 ^ 2) h (by linarith) (by linarith)⟩

/-- A triangular matrix. -/
example : ∃ v0 v1, axes id 4 2 0 1 = (some v0, some v1) ∧ 4 * v0.1 + 2 * v0.2 = 4 * v0.1 ∧ 4 * v1.1 + 2 * v1.2 = v1.1 := by
  have hy : ((4 : ℝ) + 1) * (4 + 1) / 4 - 4 * 1 + 2 * 0 = (3 / 2) ^ 2 := by norm_num
  have hl : lengths id 4 2 0 1 = (some 2, some 1) := by
    have hsp : spread id 4 2 0 1 = some (3 / 2) := by
      show root id (((4 : ℝ) + 1) * (4 + 1) / 4 - 4 * 1 + 2 * 0) = _
      rw [hy, root_some (by positivity), sqrt_sq (by norm_num)]; rfl
    rw [lengths, hsp]
    show (root id (((4 : ℝ) + 1) / 2 + 3 / 2), root id (((4 : ℝ) + 1) / 2 - 3 / 2)) = _
    rw [show ((4 : ℝ) + 1) / 2 + 3 / 2 = 2 ^ 2 by norm_num, show ((4 : ℝ) + 1) / 2 - 3 / 2 = 1 ^ 2 by norm_num,
      root_some (by positivity), root_some (by positivity), sqrt_sq (by norm_num), sqrt_sq (by norm_num)]; rfl
  obtain ⟨v0, v1, e, ⟨-, a, -⟩, ⟨-, b, -⟩⟩ := C140_eigenvectors 4 2 0 1 2 1 (Or.inr (by norm_num)) hl
  exact ⟨v0, v1, e, by linarith, by linarith⟩

/-- **C140.** Without rounding the lengths and the axes of positive definite matrices are those of C66. -/
theorem C140_agrees (a b d : ℝ) (h : PosDef2 a b d) :
    let e := Ellipsoid.compute ⟨a, b, b, d⟩
    lengths id a b b d = (some e.l0, some e.l1) ∧
    axes id a b b d = (some (e.axes.m00, e.axes.m10), some (e.axes.m01, e.axes.m11)) := by
  intro e
  obtain ⟨ha, hd, hdet⟩ := Ellipsoid.posDef_coeffs h
  have hy : 0 ≤ (a + d) * (a + d) / 4 - a * d + b * b := by nlinarith [sq_nonneg (a - d), mul_self_nonneg b]
  have htt := mul_self_sqrt hy
  have ht := sqrt_nonneg ((a + d) * (a + d) / 4 - a * d + b * b)
  have hl : lengths id a b b d = (some e.l0, some e.l1) := by
    have hsp : spread id a b b d = some (sqrt ((a + d) * (a + d) / 4 - a * d + b * b)) := root_some hy
    have h1 : 0 ≤ (a + d) / 2 - sqrt ((a + d) * (a + d) / 4 - a * d + b * b) := by
      have : sqrt ((a + d) * (a + d) / 4 - a * d + b * b) ≤ (a + d) / 2 := by
        refine sqrt_le_iff.2 ⟨by positivity, by nlinarith⟩
      linarith
    rw [lengths, hsp]
    simp only [Option.bind_some, id]
    rw [root_some (by linarith), root_some h1]
    rfl
  refine ⟨hl, ?_⟩
  have hraw : rawAxes id a b b d =
      (some ((Ellipsoid.rawAxes a b b d e.l0 e.l1).m00, (Ellipsoid.rawAxes a b b d e.l0 e.l1).m10),
       some ((Ellipsoid.rawAxes a b b d e.l0 e.l1).m01, (Ellipsoid.rawAxes a b b d e.l0 e.l1).m11)) := by
    rw [rawAxes, hl, Ellipsoid.rawAxes]
    by_cases hb : b = 0
    · subst hb
      by_cases hda : d < a <;> simp [hda]
    · simp [hb, column]
  rw [axes, hraw]
  rfl

/-- **C140.** With rounding, what holds: for a positive definite matrix with eigenvalues `k1 < k0` that are not too close,
`4 * 2 ^ (-p / 2)` relative to their sum, the major length is a number, and its square is the major eigenvalue up to
`12 (k0 + k1)² / (2 ^ p (k0 - k1))`. If the minor eigenvalue is not below this error, the same holds of the minor length. -/
theorem C140_lengths_partial (p : ℕ) (fl : ℝ → ℝ) (hfl : Rounds p fl) (hp : 20 ≤ p) (a b d k0 k1 : ℝ) (h : PosDef2 a b d)
    (h0 : Eigenvalue2 a b d k0) (h1 : Eigenvalue2 a b d k1) (hlt : k1 < k0)
    (hgap : 16 * (k0 + k1) ^ 2 ≤ 2 ^ p * (k0 - k1) ^ 2) :
    (∃ l, (lengths fl a b b d).1 = some l ∧ |l ^ 2 - k0| ≤ 12 * (k0 + k1) ^ 2 / (2 ^ p * (k0 - k1))) ∧
    (12 * (k0 + k1) ^ 2 / (2 ^ p * (k0 - k1)) ≤ k1 →
      ∃ l, (lengths fl a b b d).2 = some l ∧ |l ^ 2 - k1| ≤ 12 * (k0 + k1) ^ 2 / (2 ^ p * (k0 - k1))) := by
  obtain ⟨ha, hd, hdet⟩ := Ellipsoid.posDef_coeffs h
  obtain ⟨hs, -, hg⟩ := C140.eigen h0 h1 hlt
  exact lengths_error hfl hp ha hd (by linarith) hs hg hlt (C140.minor_pos h h0 h1 hlt) hgap

/-- The project's kind of matrix, in double: eigenvalues 3 and 1. -/
example : ∃ fl : ℝ → ℝ, Rounds 53 fl ∧ ∃ l, (lengths fl 2 1 1 2).2 = some l ∧ |l ^ 2 - 1| ≤ 1 / 2 ^ 46 := by
  refine ⟨round53, rounds_double.2 round53_nearest, ?_⟩
  obtain ⟨l, h1, h2⟩ := (C140_lengths_partial 53 round53 (rounds_double.2 round53_nearest) (by norm_num) 2 1 2 3 1
    (C140.posDef (by norm_num) (by norm_num)) (by norm_num [Eigenvalue2]) (by norm_num [Eigenvalue2]) (by norm_num)
    (by norm_num)).2 (by norm_num)
  exact ⟨l, h1, h2.trans (by norm_num)⟩

/-- **C140.** A column of the axes is NaN exactly if the matrix is not diagonal and the length is NaN; otherwise it has the
length one up to `8 / 2 ^ p`. -/
theorem C140_unit (p : ℕ) (fl : ℝ → ℝ) (hfl : Rounds p fl) (hp : 20 ≤ p) (a b c d : ℝ) :
    ((axes fl a b c d).1 = none ↔ (b ≠ 0 ∨ c ≠ 0) ∧ (lengths fl a b c d).1 = none) ∧
    ((axes fl a b c d).2 = none ↔ (b ≠ 0 ∨ c ≠ 0) ∧ (lengths fl a b c d).2 = none) ∧
    (∀ v, (axes fl a b c d).1 = some v ∨ (axes fl a b c d).2 = some v → |v.1 ^ 2 + v.2 ^ 2 - 1| ≤ 8 / 2 ^ p) := by
  have hcol : ∀ l, (b ≠ 0 ∨ c ≠ 0) → (column fl a b c d l).1 ≠ 0 ∨ (column fl a b c d l).2 ≠ 0 := by
    intro l h
    rw [column]
    by_cases hc : c = 0
    · left
      rw [if_neg (by simp [hc])]
      rcases h with h | h
      · exact h
      · exact absurd hc h
    · right
      rw [if_pos hc]
      exact hc
  rw [axes, rawAxes]
  by_cases hd : b ≠ 0 ∨ c ≠ 0
  · rw [if_pos hd.symm]
    refine ⟨by simp [hd], by simp [hd], ?_⟩
    rintro v (h | h)
    · simp only [Option.map_eq_some_iff] at h
      obtain ⟨w, ⟨l, -, rfl⟩, rfl⟩ := h
      exact normalized_error hfl hp (hcol l hd)
    · simp only [Option.map_eq_some_iff] at h
      obtain ⟨w, ⟨l, -, rfl⟩, rfl⟩ := h
      exact normalized_error hfl hp (hcol l hd)
  · rw [if_neg (fun h => hd h.symm)]
    by_cases had : a > d
    · rw [if_pos had]
      refine ⟨by simp [hd], by simp [hd], ?_⟩
      rintro v (h | h)
      · simp only [Option.map_some, Option.some.injEq] at h
        rw [← h]; exact normalized_error hfl hp (by simp)
      · simp only [Option.map_some, Option.some.injEq] at h
        rw [← h]; exact normalized_error hfl hp (by simp)
    · rw [if_neg had]
      refine ⟨by simp [hd], by simp [hd], ?_⟩
      rintro v (h | h)
      · simp only [Option.map_some, Option.some.injEq] at h
        rw [← h]; exact normalized_error hfl hp (by simp)
      · simp only [Option.map_some, Option.some.injEq] at h
        rw [← h]; exact normalized_error hfl hp (by simp)

/-- Both cases occur. -/
example : ∃ fl : ℝ → ℝ, Rounds 24 fl ∧ (axes fl 1 0 0 2).1 ≠ none := by
  refine ⟨round24, rounds_single.2 round24_nearest, fun h => ?_⟩
  have := (C140_unit 24 round24 (rounds_single.2 round24_nearest) (by norm_num) 1 0 0 2).1.1 h
  simp at this

/-- **C140.** With rounding, for a positive definite matrix that is not diagonal, with eigenvalues that are not too close:
the major axis is parallel to the eigenvectors of the major eigenvalue up to `40 (k0 + k1)² / (2 ^ p (k0 - k1)²)` if the first
entry is not less than the last, and the minor axis is so if the last is not less than the first and the minor eigenvalue is
not below its error. -/
theorem C140_axes_partial (p : ℕ) (fl : ℝ → ℝ) (hfl : Rounds p fl) (hp : 20 ≤ p) (a b d k0 k1 : ℝ) (h : PosDef2 a b d)
    (hb : b ≠ 0) (h0 : Eigenvalue2 a b d k0) (h1 : Eigenvalue2 a b d k1) (hlt : k1 < k0)
    (hgap : 2 ^ 20 * (k0 + k1) ^ 2 ≤ 2 ^ p * (k0 - k1) ^ 2) :
    (d ≤ a → ∃ v, (axes fl a b b d).1 = some v ∧ ∀ x y, Eigen2 a b d k0 x y →
      |v.1 * y - v.2 * x| ≤ 40 * (k0 + k1) ^ 2 / (2 ^ p * (k0 - k1) ^ 2) * (|x| + |y|)) ∧
    (a ≤ d → 12 * (k0 + k1) ^ 2 / (2 ^ p * (k0 - k1)) ≤ k1 →
      ∃ v, (axes fl a b b d).2 = some v ∧ ∀ x y, Eigen2 a b d k1 x y →
      |v.1 * y - v.2 * x| ≤ 40 * (k0 + k1) ^ 2 / (2 ^ p * (k0 - k1) ^ 2) * (|x| + |y|)) := by
  obtain ⟨ha, hd, hdet⟩ := Ellipsoid.posDef_coeffs h
  obtain ⟨hs, hprod, hg⟩ := C140.eigen h0 h1 hlt
  have hk1 := C140.minor_pos h h0 h1 hlt
  obtain ⟨L0, L1⟩ := C140_lengths_partial p fl hfl hp a b d k0 k1 h h0 h1 hlt (by nlinarith [sq_nonneg (k0 + k1)])
  obtain ⟨R, hR, hR1, hR2⟩ := C140.sizes hk1 hlt hgap
  have hG : 0 < k0 - k1 := by linarith
  have hT : (k0 - k1) ≤ k0 + k1 := by linarith
  have h12 : 12 * (k0 + k1) ^ 2 / (2 ^ p * (k0 - k1)) = 12 * R := by rw [hR]; ring
  have hpow : (2 : ℝ) ^ 20 = 1048576 := by norm_num
  rw [hpow] at hR2
  rw [h12] at L0 L1 ⊢
  have key : ∀ k l, 0 ≤ k → k ≤ k0 + k1 → |l ^ 2 - k| ≤ 12 * R → (k0 - k1) / 2 ≤ |k - d| → ∀ x y, Eigen2 a b d k x y →
      |(normalized fl (column fl a b b d l)).1 * y - (normalized fl (column fl a b b d l)).2 * x| ≤
        40 * (k0 + k1) ^ 2 / (2 ^ p * (k0 - k1) ^ 2) * (|x| + |y|) := by
    intro k l hk hkT hl hkd x y he
    rw [column, if_pos hb]
    have hc := column_error hfl hp hd.le (by linarith) hk hkT hR1 (by linarith) hl
    have := parallel hfl hp (v := (fl (fl (l * l) - d), b)) hG hkd hc (by linarith) (x := x) (y := y)
      (by linear_combination he.2)
    refine this.trans (mul_le_mul_of_nonneg_right ?_ (by positivity))
    have e1 : 40 * (k0 + k1) ^ 2 / (2 ^ p * (k0 - k1) ^ 2) = 40 * (R / (k0 - k1)) := by rw [hR]; field_simp
    have e2 : 11 / 10 / 2 ^ p ≤ 11 / 10 * (R / (k0 - k1)) := by
      rw [div_le_iff₀ (by positivity), hR]
      have : 1 ≤ (k0 + k1) ^ 2 / (k0 - k1) ^ 2 := by
        rw [one_le_div (by positivity)]
        nlinarith
      have e3 : 11 / 10 * ((k0 + k1) ^ 2 / (2 ^ p * (k0 - k1)) / (k0 - k1)) * 2 ^ p =
        11 / 10 * ((k0 + k1) ^ 2 / (k0 - k1) ^ 2) := by field_simp
      rw [e3]
      linarith
    have e4 : 22 / 10 * (16 * R) / (k0 - k1) = 352 / 10 * (R / (k0 - k1)) := by ring
    have e5 : 0 ≤ R / (k0 - k1) := div_nonneg (by rw [hR]; positivity) hG.le
    rw [e1, e4]
    linarith
  constructor
  · intro hda
    obtain ⟨l, hl, he⟩ := L0
    refine ⟨normalized fl (column fl a b b d l), ?_, key k0 l (by linarith) (by linarith) he ?_⟩
    · rw [axes, rawAxes, if_pos (Or.inl hb), hl]; rfl
    · rw [le_abs]; left; linarith
  · intro had hbig
    obtain ⟨l, hl, he⟩ := L1 hbig
    refine ⟨normalized fl (column fl a b b d l), ?_, key k1 l hk1.le (by linarith) he ?_⟩
    · rw [axes, rawAxes, if_pos (Or.inl hb), hl]; rfl
    · rw [le_abs]; right; linarith

/-- In double, `[2 1; 1 2]`: both axes are right up to 2 ^ (-45). -/
example : ∃ fl : ℝ → ℝ, Rounds 53 fl ∧ ∃ v, (axes fl 2 1 1 2).1 = some v ∧ |v.1 - v.2| ≤ 1 / 2 ^ 44 := by
  refine ⟨round53, rounds_double.2 round53_nearest, ?_⟩
  obtain ⟨v, h1, h2⟩ := (C140_axes_partial 53 round53 (rounds_double.2 round53_nearest) (by norm_num) 2 1 2 3 1
    (C140.posDef (by norm_num) (by norm_num)) (by norm_num) (by norm_num [Eigenvalue2]) (by norm_num [Eigenvalue2])
    (by norm_num) (by norm_num)).1 le_rfl
  refine ⟨v, h1, ?_⟩
  have := h2 1 1 (by constructor <;> norm_num)
  rw [mul_one, mul_one] at this
  exact this.trans (by norm_num)

/-- **C140.** If the two variances are equal and uncorrelated, both lengths are their rounded root. -/
theorem C140_round (p : ℕ) (fl : ℝ → ℝ) (hfl : Rounds p fl) (ht : TiesToEven p fl) (hp : 4 ≤ p) (a : ℝ) (ha : 0 ≤ a)
    (hf : IsFloat p a) : lengths fl a 0 0 a = (some (fl (sqrt a)), some (fl (sqrt a))) :=
  lengths_round hfl ht hp ha hf

/-- The unit matrix. -/
example : ∃ fl : ℝ → ℝ, Rounds 53 fl ∧ lengths fl 1 0 0 1 = (some 1, some 1) := by
  obtain ⟨fl, h1, h2⟩ := exists_tiesToEven (by norm_num : 1 ≤ 53) (rounds_double.2 round53_nearest)
  have hf : IsFloat 53 1 := ⟨1, 0, by norm_num, by norm_num⟩
  refine ⟨fl, h1, ?_⟩
  rw [C140_round 53 fl h1 h2 (by norm_num) 1 (by norm_num) hf, sqrt_one, h1.self hf]

/-- **C140.** The lengths of positive definite matrices are not always numbers: for the diagonal matrix with 1 and the next
number after 1, both are NaN. -/
theorem C140_fails_diagonal (p : ℕ) (fl : ℝ → ℝ) (hfl : Rounds p fl) (ht : TiesToEven p fl) (hp : 4 ≤ p) :
    IsFloat p (1 + 2 / 2 ^ p) ∧ PosDef2 1 0 (1 + 2 / 2 ^ p) ∧ lengths fl 1 0 0 (1 + 2 / 2 ^ p) = (none, none) := by
  refine ⟨⟨2 ^ (p - 1) + 1, 1 - p, ?_, ?_⟩, C140.posDef (by norm_num) (by rw [zero_mul]; positivity), ?_⟩
  · rw [abs_of_pos (by positivity)]
    have h1 : (2 : ℤ) ^ p = 2 * 2 ^ (p - 1) := by
      conv_lhs => rw [show p = p - 1 + 1 by omega]
      ring
    have h2 : (2 : ℤ) ^ 1 ≤ 2 ^ (p - 1) := pow_le_pow_right₀ (by norm_num) (by omega)
    rw [h1]; linarith
  · obtain ⟨q, rfl⟩ : ∃ q, p = q + 1 := ⟨p - 1, by omega⟩
    push_cast
    rw [show (1 : ℤ) - (q + 1) = -(q : ℤ) by ring, zpow_neg, zpow_natCast, pow_succ]
    field_simp
  · rw [lengths, diagonal_nan hfl ht hp]
    rfl

/-- **C140.** The minor length alone can be NaN: a positive definite matrix near a singular one. The minor axis is NaN, too. -/
theorem C140_fails_minor (p : ℕ) (fl : ℝ → ℝ) (hfl : Rounds p fl) (ht : TiesToEven p fl) (hp : 20 ≤ p) :
    let e : ℝ := 1 / 2 ^ p
    PosDef2 (9 / 8 + 2 * e) (3 / 8 + e) (1 / 8 + e / 2) ∧
    (∃ l, lengths fl (9 / 8 + 2 * e) (3 / 8 + e) (3 / 8 + e) (1 / 8 + e / 2) = (some l, none)) ∧
    (axes fl (9 / 8 + 2 * e) (3 / 8 + e) (3 / 8 + e) (1 / 8 + e / 2)).2 = none := by
  intro e
  have he0 : 0 < e := by positivity
  have hl := minor_nan hfl ht (by omega) (e := e) rfl
  refine ⟨C140.posDef (by positivity) (by nlinarith), hl, ?_⟩
  obtain ⟨l, hl⟩ := hl
  exact (C140_unit p fl hfl hp _ _ _ _).2.1.2 ⟨Or.inl (by positivity), by rw [hl]⟩

/-- **C140.** The minor length can be 0 although the matrix is positive definite: with the variances 1 and any positive one
below `1 / (16 * 2 ^ p)`. -/
theorem C140_fails_flat (p : ℕ) (fl : ℝ → ℝ) (hfl : Rounds p fl) (hp : 4 ≤ p) (d : ℝ) (h0 : 0 < d)
    (hd : d < 1 / (16 * 2 ^ p)) : PosDef2 1 0 d ∧ lengths fl 1 0 0 d = (some 1, some 0) :=
  ⟨C140.posDef (by norm_num) (by linarith), flat_zero hfl hp h0 hd⟩

/-- **C140.** The major axis can be wrong by a right angle although the lengths are right and the eigenvalues far apart:
for `[1/4 b; b 1+2e]`, where `e = 1 / 2 ^ p` and `b` is small and not 0, the computed major axis is orthogonal to all
eigenvectors of the major eigenvalue, up to `5 e`. -/
theorem C140_fails_axis (p : ℕ) (fl : ℝ → ℝ) (hfl : Rounds p fl) (hp : 20 ≤ p) (b : ℝ) (hb : b ≠ 0) :
    let e : ℝ := 1 / 2 ^ p
    |b| ≤ 4 * e ^ 2 → PosDef2 (1 / 4) b (1 + 2 * e) ∧
    ∃ v, (axes fl (1 / 4) b b (1 + 2 * e)).1 = some v ∧ |v.1 ^ 2 + v.2 ^ 2 - 1| ≤ 8 * e ∧
      ∀ k x y, Eigen2 (1 / 4) b (1 + 2 * e) k x y → 1 ≤ k → |v.1 * x + v.2 * y| ≤ 5 * e * (|x| + |y|) := by
  intro e hbe
  have he0 : 0 < e := by positivity
  have he1 : e ≤ 1 / 1000000 := half_pow hp
  have hb1 : |b| ≤ e / 100 := hbe.trans (by nlinarith)
  have hbb : b * b ≤ e / 100 := by
    rw [← abs_mul_abs_self b]
    nlinarith [abs_nonneg b]
  obtain ⟨hraw, hsmall⟩ := axis_wrong hfl hp (e := e) rfl hb hbe
  have hax : (axes fl (1 / 4) b b (1 + 2 * e)).1 = some (normalized fl (-(2 * e), b)) := by rw [axes, hraw]; rfl
  have hunit : |(normalized fl (-(2 * e), b)).1 ^ 2 + (normalized fl (-(2 * e), b)).2 ^ 2 - 1| ≤ 8 * e := by
    have := (C140_unit p fl hfl hp (1 / 4) b b (1 + 2 * e)).2.2 _ (Or.inl hax)
    refine this.trans (le_of_eq ?_)
    change 8 / 2 ^ p = 8 * (1 / 2 ^ p)
    ring
  refine ⟨C140.posDef (by norm_num) (by linarith), _, hax, hunit, ?_⟩
  intro k x y hxy hk
  generalize normalized fl (-(2 * e), b) = v at *
  have hv1 : |v.1| ≤ 2 := by
    have := (abs_le.1 hunit).2
    refine abs_le_of_sq_le_sq' ?_ (by norm_num) |>.2
    rw [sq_abs]
    nlinarith [sq_nonneg v.2]
  have hx : |x| ≤ e * |y| := by
    have h1 : (k - 1 / 4) * x = b * y := by linear_combination -hxy.1
    have h2 : (k - 1 / 4) * |x| = |b| * |y| := by
      rw [← abs_of_pos (by linarith : 0 < k - 1 / 4), ← abs_mul, ← abs_mul, h1]
    have h3 : |b| * |y| ≤ e / 100 * |y| := mul_le_mul_of_nonneg_right hb1 (abs_nonneg _)
    have h4 : 3 / 4 * |x| ≤ (k - 1 / 4) * |x| := mul_le_mul_of_nonneg_right (by linarith) (abs_nonneg _)
    have : 0 ≤ e * |y| := by positivity
    linarith
  have t1 : |v.1 * x| ≤ 2 * |x| := by rw [abs_mul]; exact mul_le_mul_of_nonneg_right hv1 (abs_nonneg _)
  have t2 : |v.2 * y| ≤ 2 * e * |y| := by rw [abs_mul]; exact mul_le_mul_of_nonneg_right hsmall (abs_nonneg _)
  have t3 := abs_add_le (v.1 * x) (v.2 * y)
  have : 0 ≤ e * |x| := by positivity
  have : 0 ≤ e * |y| := by positivity
  linarith

/-- There is such a rounding, for double and for float; the major eigenvalue of the last matrix is above 1, and `b` can be a
double. -/
example : (∃ fl, Rounds 53 fl ∧ TiesToEven 53 fl) ∧ (∃ fl, Rounds 24 fl ∧ TiesToEven 24 fl) ∧
    ∃ b : ℝ, IsFloat 53 b ∧ b ≠ 0 ∧ |b| ≤ 4 * (1 / 2 ^ 53) ^ 2 ∧
      ∃ k, 1 ≤ k ∧ Eigenvalue2 (1 / 4) b (1 + 2 * (1 / 2 ^ 53)) k := by
  refine ⟨exists_tiesToEven (by norm_num) (rounds_double.2 round53_nearest),
    exists_tiesToEven (by norm_num) (rounds_single.2 round24_nearest), (2 : ℝ) ^ (-106 : ℤ), isFloat_pow (by norm_num) _,
    by positivity, by rw [abs_of_pos (by positivity)]; norm_num, ?_⟩
  generalize (2 : ℝ) ^ (-106 : ℤ) = b
  have hd : (1 : ℝ) ≤ 1 + 2 * (1 / 2 ^ 53) := by norm_num
  generalize (1 : ℝ) + 2 * (1 / 2 ^ 53) = d at hd
  have hy : 0 ≤ (1 / 4 - d) ^ 2 / 4 + b * b := by nlinarith [sq_nonneg (1 / 4 - d), mul_self_nonneg b]
  refine ⟨(1 / 4 + d) / 2 + sqrt ((1 / 4 - d) ^ 2 / 4 + b * b), ?_, ?_⟩
  · have : (d - 1 / 4) / 2 ≤ sqrt ((1 / 4 - d) ^ 2 / 4 + b * b) := by
      apply le_sqrt_of_sq_le
      nlinarith [mul_self_nonneg b]
    linarith
  · unfold Eigenvalue2
    linear_combination mul_self_sqrt hy

end Ecl.Props
