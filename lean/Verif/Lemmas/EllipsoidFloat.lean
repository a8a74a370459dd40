import Verif.Model.EllipsoidFloat
import Verif.Spec.Ellipse
import Verif.Lemmas.CovarianceEllipsoid
import Verif.Lemmas.Ties

/-! # The planar ellipse with rounding -/
set_option autoImplicit false

namespace Ecl.EllipsoidFloat
open Real Ecl.Spec

/-- One operation on an operand with an error. -/
theorem step {p : ℕ} {fl : ℝ → ℝ} (hfl : Rounds p fl) (hp : 1 ≤ p) {x x0 E M : ℝ} (h : |x - x0| ≤ E) (hM : |x0| + E ≤ M) :
    |fl x - x0| ≤ E + M / 2 ^ p := by
  have h1 := hfl.relative hp x
  have h2 : |x| ≤ M := by
    have := abs_sub_abs_le_abs_sub x x0
    linarith
  have h3 : |x| / 2 ^ p ≤ M / 2 ^ p := by gcongr
  have h4 := abs_sub_le (fl x) x x0
  linarith

/-- The operand of the first square root. -/
noncomputable def disc (fl : ℝ → ℝ) (a b c d : ℝ) : ℝ :=
  fl (fl (fl (fl (fl (a + d) * fl (a + d)) / 4) - fl (a * d)) + fl (b * c))

theorem half_pow {p : ℕ} (hp : 20 ≤ p) : (1 : ℝ) / 2 ^ p ≤ 1 / 1000000 := by
  have h1 : (2 : ℝ) ^ 20 ≤ 2 ^ p := pow_le_pow_right₀ (by norm_num) hp
  apply one_div_le_one_div_of_le (by norm_num)
  norm_num at h1
  linarith

theorem disc_error {p : ℕ} {fl : ℝ → ℝ} (hfl : Rounds p fl) (hp : 20 ≤ p) {a b d : ℝ} (ha : 0 < a) (hd : 0 < d)
    (hdet : b * b ≤ a * d) :
    |disc fl a b b d - ((a - d) ^ 2 / 4 + b * b)| ≤ 21 / 10 * ((a + d) ^ 2 / 2 ^ p) := by
  have hp1 : 1 ≤ p := by omega
  have hu := half_pow hp
  have hu0 : (0 : ℝ) < 1 / 2 ^ p := by positivity
  set u : ℝ := 1 / 2 ^ p with hud
  have du : ∀ M : ℝ, M / 2 ^ p = M * u := fun M => by rw [hud]; ring
  set W := (a + d) ^ 2 / 4 with hW
  have hW0 : 0 < W := by positivity
  have hadW : a * d ≤ W := by rw [hW]; nlinarith [sq_nonneg (a - d)]
  have had : 0 < a * d := by positivity
  have hbb : 0 ≤ b * b := mul_self_nonneg b
  set e := W * u with he
  have he0 : 0 < e := by positivity
  have heW : e ≤ W / 1000000 := by rw [he]; nlinarith
  -- s
  have hs := step hfl hp1 (x := a + d) (x0 := a + d) (E := 0) (M := a + d) (by simp) (by rw [abs_of_pos (by positivity)]; linarith)
  rw [zero_add, du] at hs
  set s := fl (a + d) with hsd
  have hT : 0 < a + d := by positivity
  have hs2 : |s * s - 4 * W| ≤ 801 / 100 * e := by
    rw [show s * s - 4 * W = (s - (a + d)) * (s - (a + d)) + 2 * (a + d) * (s - (a + d)) by rw [hW]; ring]
    have h1 : |(s - (a + d)) * (s - (a + d))| ≤ ((a + d) * u) * ((a + d) * u) := by
      rw [abs_mul]; exact mul_le_mul hs hs (abs_nonneg _) (by positivity)
    have h2 : |2 * (a + d) * (s - (a + d))| ≤ 2 * (a + d) * ((a + d) * u) := by
      rw [abs_mul, abs_of_pos (by positivity : 0 < 2 * (a + d))]
      exact mul_le_mul_of_nonneg_left hs (by positivity)
    have h3 : ((a + d) * u) * ((a + d) * u) ≤ e / 100 := by
      have : ((a + d) * u) * ((a + d) * u) = 4 * e * u := by rw [he, hW]; ring
      rw [this]; nlinarith
    have h4 : 2 * (a + d) * ((a + d) * u) = 8 * e := by rw [he, hW]; ring
    have := abs_add_le ((s - (a + d)) * (s - (a + d))) (2 * (a + d) * (s - (a + d)))
    linarith
  have hq := step hfl hp1 (M := 401 / 100 * W) hs2 (by rw [abs_of_pos (by positivity)]; linarith)
  rw [du, show 401 / 100 * W * u = 401 / 100 * e by rw [he]; ring] at hq
  set q := fl (s * s)
  have hq4 : |q / 4 - W| ≤ 1202 / 400 * e + 1 / 100 * e := by
    rw [show q / 4 - W = (q - 4 * W) / 4 by ring, abs_div, abs_of_pos (by norm_num : (0 : ℝ) < 4)]
    linarith
  have hr := step hfl hp1 (M := 101 / 100 * W) hq4 (by rw [abs_of_pos (by positivity)]; linarith)
  rw [du, show 101 / 100 * W * u = 101 / 100 * e by rw [he]; ring] at hr
  set r := fl (q / 4)
  have hm := step hfl hp1 (x := a * d) (x0 := a * d) (E := 0) (M := W) (by simp) (by rw [abs_of_pos (by positivity)]; linarith)
  rw [zero_add, du, ← he] at hm
  set m := fl (a * d)
  have hx0 : |(r - m) - (W - a * d)| ≤ 503 / 100 * e := by
    rw [show (r - m) - (W - a * d) = (r - W) - (m - a * d) by ring]
    have := abs_sub (r - W) (m - a * d)
    linarith
  have hx := step hfl hp1 (M := 101 / 100 * W) hx0 (by rw [abs_of_nonneg (by linarith)]; linarith)
  rw [du, show 101 / 100 * W * u = 101 / 100 * e by rw [he]; ring] at hx
  set x := fl (r - m)
  have hb := step hfl hp1 (x := b * b) (x0 := b * b) (E := 0) (M := W) (by simp) (by rw [abs_of_nonneg hbb]; linarith)
  rw [zero_add, du, ← he] at hb
  set bb := fl (b * b)
  have hy0 : |(x + bb) - (W - a * d + b * b)| ≤ 705 / 100 * e := by
    rw [show (x + bb) - (W - a * d + b * b) = (x - (W - a * d)) + (bb - b * b) by ring]
    have := abs_add_le (x - (W - a * d)) (bb - b * b)
    linarith
  have hy := step hfl hp1 (M := 101 / 100 * W) hy0 (by rw [abs_of_nonneg (by linarith)]; linarith)
  rw [du, show 101 / 100 * W * u = 101 / 100 * e by rw [he]; ring] at hy
  have hD : (a - d) ^ 2 / 4 + b * b = W - a * d + b * b := by rw [hW]; ring
  rw [hD, du, show 21 / 10 * ((a + d) ^ 2 * u) = 84 / 10 * e by rw [he, hW]; ring]
  change |fl (x + bb) - _| ≤ _
  linarith

/-- A square root of an operand with an error. -/
theorem sqrt_error {y D E : ℝ} (hD : 0 < D) (hy : 0 ≤ y) (h : |y - D| ≤ E) : |sqrt y - sqrt D| ≤ E / sqrt D := by
  have h1 : 0 < sqrt D := sqrt_pos.2 hD
  rw [le_div_iff₀ h1]
  refine le_trans ?_ h
  have h2 : y - D = (sqrt y - sqrt D) * (sqrt y + sqrt D) := by
    have e1 := mul_self_sqrt hy
    have e2 := mul_self_sqrt hD.le
    nlinarith
  rw [h2, abs_mul, abs_of_nonneg (by positivity : 0 ≤ sqrt y + sqrt D)]
  exact mul_le_mul_of_nonneg_left (by linarith [sqrt_nonneg y]) (abs_nonneg _)

/-- The square of a rounded square root. -/
theorem root_square {p : ℕ} {fl : ℝ → ℝ} (hfl : Rounds p fl) (hp : 20 ≤ p) {x : ℝ} (hx : 0 ≤ x) :
    |fl (sqrt x) ^ 2 - x| ≤ 201 / 100 * (x / 2 ^ p) := by
  have hu := half_pow hp
  have hu0 : (0 : ℝ) < 1 / 2 ^ p := by positivity
  have h := hfl.relative (by omega) (sqrt x)
  set u : ℝ := 1 / 2 ^ p with hud
  rw [abs_of_nonneg (sqrt_nonneg x), show sqrt x / 2 ^ p = sqrt x * u by rw [hud]; ring] at h
  rw [show x / 2 ^ p = x * u by rw [hud]; ring]
  have e1 := mul_self_sqrt hx
  set r := sqrt x
  have hr : 0 ≤ r := sqrt_nonneg x
  set l := fl r
  rw [← e1, show l ^ 2 - r * r = (l - r) * (l - r) + 2 * r * (l - r) by ring]
  have h1 : |(l - r) * (l - r)| ≤ (r * u) * (r * u) := by
    rw [abs_mul]; exact mul_le_mul h h (abs_nonneg _) (by positivity)
  have h2 : |2 * r * (l - r)| ≤ 2 * r * (r * u) := by
    rw [abs_mul, abs_of_nonneg (by positivity : 0 ≤ 2 * r)]
    exact mul_le_mul_of_nonneg_left h (by positivity)
  have h3 : (r * u) * (r * u) ≤ r * r * u / 100 := by
    rw [show (r * u) * (r * u) = r * r * u * u by ring]
    have : 0 ≤ r * r * u := by positivity
    nlinarith
  have := abs_add_le ((l - r) * (l - r)) (2 * r * (l - r))
  nlinarith

/-- The lengths of a positive definite matrix with eigenvalues that are far enough apart. -/
theorem lengths_error {p : ℕ} {fl : ℝ → ℝ} (hfl : Rounds p fl) (hp : 20 ≤ p) {a b d k0 k1 : ℝ} (ha : 0 < a) (hd : 0 < d)
    (hdet : b * b < a * d) (hT : k0 + k1 = a + d) (hG : (k0 - k1) ^ 2 = (a - d) ^ 2 + 4 * (b * b)) (hlt : k1 < k0)
    (hk1 : 0 < k1) (hgap : 16 * (k0 + k1) ^ 2 ≤ 2 ^ p * (k0 - k1) ^ 2) :
    (∃ l, (lengths fl a b b d).1 = some l ∧ |l ^ 2 - k0| ≤ 12 * (k0 + k1) ^ 2 / (2 ^ p * (k0 - k1))) ∧
    (12 * (k0 + k1) ^ 2 / (2 ^ p * (k0 - k1)) ≤ k1 →
      ∃ l, (lengths fl a b b d).2 = some l ∧ |l ^ 2 - k1| ≤ 12 * (k0 + k1) ^ 2 / (2 ^ p * (k0 - k1))) := by
  have hp1 : 1 ≤ p := by omega
  have hu := half_pow hp
  have hu0 : (0 : ℝ) < 1 / 2 ^ p := by positivity
  have hy := disc_error hfl hp ha hd hdet.le
  have hP : (0 : ℝ) < 2 ^ p := by positivity
  set u : ℝ := 1 / 2 ^ p with hud
  have du : ∀ M : ℝ, M / 2 ^ p = M * u := fun M => by rw [hud]; ring
  obtain ⟨T, hTd⟩ : ∃ T, T = k0 + k1 := ⟨_, rfl⟩
  obtain ⟨G, hGd⟩ : ∃ G, G = k0 - k1 := ⟨_, rfl⟩
  have hG0 : 0 < G := by linarith
  have hGT : G < T := by linarith
  have hT0 : 0 < T := by linarith
  rw [← hT, ← hTd] at hy
  have hD : (a - d) ^ 2 / 4 + b * b = G ^ 2 / 4 := by rw [hGd, hG]; ring
  rw [hD, du] at hy
  rw [← hTd, ← hGd] at hgap ⊢
  have hgap' : 16 * (T ^ 2 * u) ≤ G ^ 2 := by
    have : u * (2 ^ p * G ^ 2) = G ^ 2 := by rw [hud]; field_simp
    nlinarith
  obtain ⟨R, hR⟩ : ∃ R, R = T ^ 2 * u / G := ⟨_, rfl⟩
  have hRG : R * G = T ^ 2 * u := by rw [hR]; field_simp
  have hR0 : 0 < R := by rw [hR]; positivity
  rw [show 12 * T ^ 2 / (2 ^ p * G) = 12 * R by rw [hR, hud]; field_simp]
  have hR16 : R ≤ G / 16 := by
    have : R * G ≤ G / 16 * G := by rw [hRG]; nlinarith
    exact le_of_mul_le_mul_right this hG0
  have hTu : T * u ≤ R := by
    have : T * u * G ≤ R * G := by
      rw [hRG]
      have : T * u * G ≤ T * u * T := mul_le_mul_of_nonneg_left hGT.le (by positivity)
      nlinarith
    exact le_of_mul_le_mul_right this hG0
  -- tmp
  have hy0 : 0 ≤ disc fl a b b d := by
    have := (abs_le.1 hy).1
    have : 0 < T ^ 2 * u := by positivity
    nlinarith
  have hsD : sqrt (G ^ 2 / 4) = G / 2 := by
    rw [show G ^ 2 / 4 = (G / 2) ^ 2 by ring]; exact sqrt_sq (by linarith)
  have ht := sqrt_error (by positivity) hy0 hy
  rw [hsD, ← hRG, show 21 / 10 * (R * G) / (G / 2) = 42 / 10 * R by field_simp; ring] at ht
  have ht' := step hfl hp1 (M := T) ht (by rw [abs_of_pos (by positivity)]; linarith)
  rw [du] at ht'
  set t := fl (sqrt (disc fl a b b d)) with htd
  have hspread : spread fl a b b d = some t := by
    change root fl (disc fl a b b d) = _
    rw [root, if_neg (not_lt.2 hy0)]
  -- half the trace
  have hs := step hfl hp1 (x := a + d) (x0 := T) (E := 0) (M := T) (by rw [hTd, hT]; simp) (by rw [abs_of_pos hT0]; linarith)
  rw [zero_add, du] at hs
  set s := fl (a + d)
  have hs2 : |s / 2 - T / 2| ≤ R / 2 := by
    rw [show s / 2 - T / 2 = (s - T) / 2 by ring, abs_div, abs_of_pos (by norm_num : (0 : ℝ) < 2)]
    linarith
  have hh := step hfl hp1 (M := T) hs2 (by rw [abs_of_pos (by positivity)]; linarith)
  rw [du] at hh
  set h := fl (s / 2)
  have hk0 : k0 = T / 2 + G / 2 := by rw [hTd, hGd]; ring
  have hk1' : k1 = T / 2 - G / 2 := by rw [hTd, hGd]; ring
  have fin : ∀ {x k : ℝ}, |x - k| ≤ 67 / 10 * R → 0 < k → k ≤ T → 12 * R ≤ k →
      ∃ l, root fl (fl x) = some l ∧ |l ^ 2 - k| ≤ 12 * R := by
    intro x k hx hk hkT hbig
    have h1 := step hfl hp1 (M := 3 / 2 * T) hx (by rw [abs_of_pos hk]; linarith)
    rw [du, show 3 / 2 * T * u = 3 / 2 * (T * u) by ring] at h1
    have h2 := abs_le.1 h1
    have h3 : 0 ≤ fl x := by linarith
    refine ⟨fl (sqrt (fl x)), by rw [root, if_neg (not_lt.2 h3)], ?_⟩
    have h4 := root_square hfl hp h3
    rw [du] at h4
    have h5 : fl x * u ≤ 155 / 100 * (T * u) := by
      rw [← mul_assoc]
      exact mul_le_mul_of_nonneg_right (by linarith) hu0.le
    have := abs_sub_le (fl (sqrt (fl x)) ^ 2) (fl x) k
    linarith
  constructor
  · obtain ⟨l, h1, h2⟩ := fin (x := h + t) (k := k0) (by
      rw [hk0, show h + t - (T / 2 + G / 2) = (h - T / 2) + (t - G / 2) by ring]
      have := abs_add_le (h - T / 2) (t - G / 2)
      linarith) (by linarith) (by linarith) (by linarith)
    refine ⟨l, ?_, h2⟩
    change (spread fl a b b d).bind _ = _
    rw [hspread]
    exact h1
  · intro hbig
    obtain ⟨l, h1, h2⟩ := fin (x := h - t) (k := k1) (by
      rw [hk1', show h - t - (T / 2 - G / 2) = (h - T / 2) - (t - G / 2) by ring]
      have := abs_sub (h - T / 2) (t - G / 2)
      linarith) hk1 (by linarith) hbig
    refine ⟨l, ?_, h2⟩
    change (spread fl a b b d).bind _ = _
    rw [hspread]
    exact h1

/-- A normalised column. -/
theorem normalized_error {p : ℕ} {fl : ℝ → ℝ} (hfl : Rounds p fl) (hp : 20 ≤ p) {v : ℝ × ℝ} (hv : v.1 ≠ 0 ∨ v.2 ≠ 0) :
    |(normalized fl v).1 ^ 2 + (normalized fl v).2 ^ 2 - 1| ≤ 8 / 2 ^ p := by
  have hp1 : 1 ≤ p := by omega
  obtain ⟨x, y⟩ := v
  dsimp only at hv
  have hu := half_pow hp
  have hu0 : (0 : ℝ) < 1 / 2 ^ p := by positivity
  obtain ⟨u, hud⟩ : ∃ u : ℝ, u = 1 / 2 ^ p := ⟨_, rfl⟩
  have du : ∀ M : ℝ, M / 2 ^ p = M * u := fun M => by rw [hud]; ring
  have hr0 : 0 < x * x + y * y := by
    rcases hv with h | h
    · nlinarith [mul_self_pos.2 h, mul_self_nonneg y]
    · nlinarith [mul_self_pos.2 h, mul_self_nonneg x]
  have hx := hfl.relative hp1 (x * x)
  have hy := hfl.relative hp1 (y * y)
  rw [abs_of_nonneg (mul_self_nonneg x), du] at hx
  rw [abs_of_nonneg (mul_self_nonneg y), du] at hy
  obtain ⟨r, hr⟩ : ∃ r, r = x * x + y * y := ⟨_, rfl⟩
  rw [← hr] at hr0
  rw [← hud] at hu hu0
  have hru : r * u ≤ r / 1000000 := by nlinarith
  have hru0 : 0 < r * u := by positivity
  have hw0 : |fl (x * x) + fl (y * y) - r| ≤ r * u := by
    have := abs_add_le (fl (x * x) - x * x) (fl (y * y) - y * y)
    rw [hr, show fl (x * x) + fl (y * y) - (x * x + y * y) = (fl (x * x) - x * x) + (fl (y * y) - y * y) by ring]
    nlinarith
  have hw := step hfl hp1 (M := 101 / 100 * r) hw0 (by rw [abs_of_pos hr0]; linarith)
  rw [du, show 101 / 100 * r * u = 101 / 100 * (r * u) by ring] at hw
  obtain ⟨w, hwd⟩ : ∃ w, w = fl (fl (x * x) + fl (y * y)) := ⟨_, rfl⟩
  rw [← hwd] at hw
  have hwb := abs_le.1 hw
  have hn := root_square hfl hp (x := w) (by linarith)
  obtain ⟨n, hnd⟩ : ∃ n, n = fl (sqrt w) := ⟨_, rfl⟩
  rw [← hnd, du] at hn
  have hwu : w * u ≤ 101 / 100 * (r * u) := by rw [← mul_assoc]; exact mul_le_mul_of_nonneg_right (by linarith) hu0.le
  have hnr : |n ^ 2 - r| ≤ 405 / 100 * (r * u) := by
    have := abs_sub_le (n ^ 2) w r
    linarith
  have hnb := abs_le.1 hnr
  have hn0 : 0 < n ^ 2 := by linarith
  have hn1 : n ≠ 0 := by rintro rfl; simp at hn0
  have sq : ∀ z : ℝ, |fl (z / n) ^ 2 - z * z / n ^ 2| ≤ 201 / 100 * (z * z / n ^ 2 * u) := by
    intro z
    have h := hfl.relative hp1 (z / n)
    rw [du] at h
    rw [show z * z / n ^ 2 = (z / n) * (z / n) by field_simp]
    set q := z / n
    set l := fl q
    rw [show l ^ 2 - q * q = (l - q) * (l - q) + 2 * q * (l - q) by ring]
    have h1 : |(l - q) * (l - q)| ≤ (|q| * u) * (|q| * u) := by
      rw [abs_mul]; exact mul_le_mul h h (abs_nonneg _) (by positivity)
    have h2 : |2 * q * (l - q)| ≤ 2 * |q| * (|q| * u) := by
      rw [abs_mul, abs_mul, abs_of_pos (by norm_num : (0 : ℝ) < 2)]
      exact mul_le_mul_of_nonneg_left h (by positivity)
    have hq : |q| * |q| = q * q := abs_mul_abs_self q
    have h3 : (|q| * u) * (|q| * u) ≤ q * q * u / 100 := by
      rw [show (|q| * u) * (|q| * u) = |q| * |q| * u * u by ring, hq]
      have : 0 ≤ q * q * u := mul_nonneg (mul_self_nonneg q) hu0.le
      nlinarith
    have h4 : 2 * |q| * (|q| * u) = 2 * (q * q * u) := by rw [← hq]; ring
    have := abs_add_le ((l - q) * (l - q)) (2 * q * (l - q))
    linarith
  have hX := sq x
  have hY := sq y
  have hN : (normalized fl (x, y)) = (fl (x / n), fl (y / n)) := by rw [hnd, hwd]; rfl
  rw [hN, du]
  dsimp only
  have hone : |r / n ^ 2 - 1| ≤ 41 / 10 * u := by
    rw [show r / n ^ 2 - 1 = (r - n ^ 2) / n ^ 2 by field_simp, abs_div, abs_of_pos hn0, div_le_iff₀ hn0, abs_sub_comm]
    nlinarith
  have hsum : x * x / n ^ 2 + y * y / n ^ 2 = r / n ^ 2 := by rw [hr]; ring
  have hXY : |fl (x / n) ^ 2 + fl (y / n) ^ 2 - r / n ^ 2| ≤ 201 / 100 * (r / n ^ 2 * u) := by
    rw [← hsum, show fl (x / n) ^ 2 + fl (y / n) ^ 2 - (x * x / n ^ 2 + y * y / n ^ 2) =
      (fl (x / n) ^ 2 - x * x / n ^ 2) + (fl (y / n) ^ 2 - y * y / n ^ 2) by ring]
    have := abs_add_le (fl (x / n) ^ 2 - x * x / n ^ 2) (fl (y / n) ^ 2 - y * y / n ^ 2)
    linarith
  have hb := abs_le.1 hone
  have h5 : r / n ^ 2 * u ≤ 101 / 100 * u := mul_le_mul_of_nonneg_right (by linarith) hu0.le
  have := abs_sub_le (fl (x / n) ^ 2 + fl (y / n) ^ 2) (r / n ^ 2) 1
  linarith

set_option maxHeartbeats 1000000 in
/-- A normalised column is nearly parallel to what the column is near to. -/
theorem parallel {p : ℕ} {fl : ℝ → ℝ} (hfl : Rounds p fl) (hp : 20 ≤ p) {v : ℝ × ℝ} {g G F : ℝ} (hG : 0 < G)
    (hg : G / 2 ≤ |g|) (hF : |v.1 - g| ≤ F) (hFG : F ≤ G / 50) {x y : ℝ} (hxy : v.2 * x = g * y) :
    |(normalized fl v).1 * y - (normalized fl v).2 * x| ≤ (22 / 10 * F / G + 11 / 10 / 2 ^ p) * (|x| + |y|) := by
  have hp1 : 1 ≤ p := by omega
  obtain ⟨c, e⟩ := v
  dsimp only at hF hxy
  have hu := half_pow hp
  obtain ⟨u, hud⟩ : ∃ u : ℝ, u = 1 / 2 ^ p := ⟨_, rfl⟩
  have hu0 : 0 < u := by rw [hud]; positivity
  rw [← hud] at hu
  have du : ∀ M : ℝ, M / 2 ^ p = M * u := fun M => by rw [hud]; ring
  have hc : 48 / 100 * G ≤ |c| := by
    have := abs_sub_abs_le_abs_sub g c
    rw [abs_sub_comm] at this
    linarith
  have hc0 : 0 < |c| := by linarith
  have hr0 : 0 < c * c + e * e := by
    have := mul_self_pos.2 (abs_pos.1 hc0)
    nlinarith [mul_self_nonneg e]
  obtain ⟨r, hr⟩ : ∃ r, r = c * c + e * e := ⟨_, rfl⟩
  rw [← hr] at hr0
  -- the norm
  obtain ⟨n, hnd⟩ : ∃ n, n = fl (sqrt (fl (fl (c * c) + fl (e * e)))) := ⟨_, rfl⟩
  have hx := hfl.relative hp1 (c * c)
  have hy := hfl.relative hp1 (e * e)
  rw [abs_of_nonneg (mul_self_nonneg c), du] at hx
  rw [abs_of_nonneg (mul_self_nonneg e), du] at hy
  have hru : r * u ≤ r / 1000000 := by nlinarith
  have hru0 : 0 < r * u := by positivity
  have hw0 : |fl (c * c) + fl (e * e) - r| ≤ r * u := by
    have := abs_add_le (fl (c * c) - c * c) (fl (e * e) - e * e)
    rw [hr, show fl (c * c) + fl (e * e) - (c * c + e * e) = (fl (c * c) - c * c) + (fl (e * e) - e * e) by ring]
    nlinarith
  have hw := step hfl hp1 (M := 101 / 100 * r) hw0 (by rw [abs_of_pos hr0]; linarith)
  rw [du, show 101 / 100 * r * u = 101 / 100 * (r * u) by ring] at hw
  obtain ⟨w, hwd⟩ : ∃ w, w = fl (fl (c * c) + fl (e * e)) := ⟨_, rfl⟩
  rw [← hwd] at hw
  have hwb := abs_le.1 hw
  have hn := root_square hfl hp (x := w) (by linarith)
  rw [← hwd] at hnd
  rw [← hnd, du] at hn
  have hwu : w * u ≤ 101 / 100 * (r * u) := by rw [← mul_assoc]; exact mul_le_mul_of_nonneg_right (by linarith) hu0.le
  have hnr : |n ^ 2 - r| ≤ 405 / 100 * (r * u) := by
    have := abs_sub_le (n ^ 2) w r
    linarith
  have hnb := abs_le.1 hnr
  have hn2 : 99 / 100 * r ≤ n ^ 2 := by linarith
  have hcomp : ∀ z : ℝ, z * z ≤ r → |z / n| ≤ 101 / 100 := by
    intro z hz
    have hn0 : n ≠ 0 := by rintro rfl; norm_num at hn2; linarith
    rw [abs_div, div_le_iff₀ (abs_pos.2 hn0)]
    refine abs_le_of_sq_le_sq' ?_ (by positivity) |>.2
    rw [sq_abs, mul_pow, sq_abs]
    nlinarith
  have hn0 : 0 < |n| := abs_pos.2 (by rintro rfl; norm_num at hn2; linarith)
  have hnG : 475 / 1000 * G ≤ |n| := by
    refine abs_le_of_sq_le_sq' ?_ (by positivity) |>.2
    rw [sq_abs]
    have h1 : (48 / 100 * G) ^ 2 ≤ c * c := by
      rw [← abs_mul_abs_self c]; nlinarith
    nlinarith [mul_self_nonneg e]
  have hX := hfl.relative hp1 (c / n)
  have hY := hfl.relative hp1 (e / n)
  rw [du] at hX hY
  have hX1 : |fl (c / n) - c / n| ≤ 101 / 100 * u := hX.trans (mul_le_mul_of_nonneg_right (hcomp c (by rw [hr]; nlinarith [mul_self_nonneg e])) hu0.le)
  have hY1 : |fl (e / n) - e / n| ≤ 101 / 100 * u := hY.trans (mul_le_mul_of_nonneg_right (hcomp e (by rw [hr]; nlinarith [mul_self_nonneg c])) hu0.le)
  have hN : normalized fl (c, e) = (fl (c / n), fl (e / n)) := by rw [hnd, hwd]; rfl
  rw [hN, du]
  dsimp only
  have hsplit : fl (c / n) * y - fl (e / n) * x =
      (fl (c / n) - c / n) * y - (fl (e / n) - e / n) * x + (c - g) * y / n := by
    rw [show (c - g) * y / n = (c * y - g * y) / n by ring, ← hxy]
    ring
  rw [hsplit]
  have h1 : |(fl (c / n) - c / n) * y| ≤ 101 / 100 * u * |y| := by
    rw [abs_mul]; exact mul_le_mul_of_nonneg_right hX1 (abs_nonneg _)
  have h2 : |(fl (e / n) - e / n) * x| ≤ 101 / 100 * u * |x| := by
    rw [abs_mul]; exact mul_le_mul_of_nonneg_right hY1 (abs_nonneg _)
  have hF0 : 0 ≤ F := (abs_nonneg _).trans hF
  have h3 : |(c - g) * y / n| ≤ 22 / 10 * F / G * |y| := by
    rw [abs_div, abs_mul, div_le_iff₀ hn0]
    have h4 : F ≤ 22 / 10 * F / G * |n| := by
      rw [div_mul_eq_mul_div, le_div_iff₀ hG]
      nlinarith [mul_le_mul_of_nonneg_left hnG hF0]
    calc |c - g| * |y| ≤ F * |y| := mul_le_mul_of_nonneg_right hF (abs_nonneg _)
      _ ≤ 22 / 10 * F / G * |n| * |y| := mul_le_mul_of_nonneg_right h4 (abs_nonneg _)
      _ = _ := by ring
  have h5 : 0 ≤ 22 / 10 * F / G * |x| := by positivity
  have h6 := abs_add_le ((fl (c / n) - c / n) * y - (fl (e / n) - e / n) * x) ((c - g) * y / n)
  have h7 := abs_sub ((fl (c / n) - c / n) * y) ((fl (e / n) - e / n) * x)
  nlinarith [abs_nonneg x, abs_nonneg y, mul_nonneg hu0.le (abs_nonneg x), mul_nonneg hu0.le (abs_nonneg y)]

/-- A column from a length with an error. -/
theorem column_error {p : ℕ} {fl : ℝ → ℝ} (hfl : Rounds p fl) (hp : 20 ≤ p) {d k l T R : ℝ} (hd : 0 ≤ d) (hdT : d ≤ T)
    (hk : 0 ≤ k) (hkT : k ≤ T) (hR : T / 2 ^ p ≤ R) (hRT : R ≤ T / 50) (hl : |l ^ 2 - k| ≤ 12 * R) :
    |fl (fl (l * l) - d) - (k - d)| ≤ 16 * R := by
  have hp1 : 1 ≤ p := by omega
  have h1 := step hfl hp1 (M := 3 / 2 * T) (x := l * l) (x0 := k) (E := 12 * R) (by rw [← pow_two]; exact hl)
    (by rw [abs_of_nonneg hk]; linarith)
  have h2 : |fl (l * l) - d - (k - d)| ≤ 12 * R + 3 / 2 * R := by
    rw [show fl (l * l) - d - (k - d) = fl (l * l) - k by ring]
    have : 3 / 2 * T / 2 ^ p = 3 / 2 * (T / 2 ^ p) := by ring
    linarith
  have hab : |k - d| ≤ T := by rw [abs_le]; constructor <;> linarith
  have h3 := step hfl hp1 (M := 3 / 2 * T) h2 (by linarith)
  have hT0 : 0 ≤ T / 2 ^ p := div_nonneg (hk.trans hkT) (by positivity)
  have : 3 / 2 * T / 2 ^ p = 3 / 2 * (T / 2 ^ p) := by ring
  linarith

end Ecl.EllipsoidFloat

namespace Ecl.EllipsoidFloat
open Real Ecl.Spec

theorem near' {p : ℕ} {fl : ℝ → ℝ} (hfl : Rounds p fl) (hp : 1 ≤ p) {x v g : ℝ} (k i : ℤ) (hg : (2 : ℝ) ^ i = g)
    (hv : v = k * g) (h1 : 2 ^ p < 2 * k) (h2 : k ≤ 2 ^ p) (h : |x - v| < g / 2) : fl x = v := by
  obtain ⟨q, rfl⟩ : ∃ q, p = q + 1 := ⟨p - 1, by omega⟩
  subst hg hv
  exact hfl.near (by rw [pow_succ] at h1; omega) h2 h

theorem above' {p : ℕ} {fl : ℝ → ℝ} (hfl : Rounds p fl) (hp : 1 ≤ p) {x v g : ℝ} (k i : ℤ) (hg : (2 : ℝ) ^ i = g)
    (hv : v = k * g) (h1 : 2 ^ p ≤ 2 * k) (h2 : k ≤ 2 ^ p) (h3 : v ≤ x) (h : x < v + g / 2) : fl x = v := by
  obtain ⟨q, rfl⟩ : ∃ q, p = q + 1 := ⟨p - 1, by omega⟩
  subst hg hv
  exact hfl.near_above (by rw [pow_succ] at h1; omega) h2 h3 h

theorem exact' {p : ℕ} {fl : ℝ → ℝ} (hfl : Rounds p fl) (hp : 1 ≤ p) {v g : ℝ} (k i : ℤ) (hg : (2 : ℝ) ^ i = g)
    (hv : v = k * g) (h : |k| ≤ 2 ^ p) : fl v = v := by
  subst hg hv
  exact hfl.self (isFloat_grid hp h)

theorem tie' {p : ℕ} {fl : ℝ → ℝ} (ht : TiesToEven p fl) {x v g : ℝ} (j s i : ℤ) (hg : (2 : ℝ) ^ i = g)
    (hs : s = 1 ∨ s = -1) (hx : x = (4 * j + s : ℤ) * g) (hv : v = (4 * j : ℤ) * g) (h1 : 2 ^ p < 4 * j + s)
    (h2 : 4 * j + s < 2 * 2 ^ p) : fl x = v := by
  subst hg hv hx
  have h0 : (0 : ℤ) < 4 * j + s := lt_trans (by positivity) h1
  exact ht j s i hs (by rw [abs_of_pos h0]; exact h1) (by rw [abs_of_pos h0, pow_succ]; omega)

/-- Powers of two near the spacing. -/
theorem spacing (p : ℕ) {e : ℝ} (he : e = 1 / 2 ^ p) (i : ℤ) : (2 : ℝ) ^ (i - p) = 2 ^ i * e := by
  rw [zpow_sub₀ (by norm_num), zpow_natCast, he]
  ring

theorem root_some {fl : ℝ → ℝ} {x : ℝ} (h : 0 ≤ x) : root fl x = some (fl (sqrt x)) := by rw [root, if_neg (not_lt.2 h)]
theorem root_none {fl : ℝ → ℝ} {x : ℝ} (h : x < 0) : root fl x = none := by rw [root, if_pos h]

/-- The diagonal matrix with 1 and the next number. -/
theorem diagonal_nan {p : ℕ} {fl : ℝ → ℝ} (hfl : Rounds p fl) (ht : TiesToEven p fl) (hp : 4 ≤ p) :
    spread fl 1 0 0 (1 + 2 / 2 ^ p) = none := by
  have hp1 : 1 ≤ p := by omega
  obtain ⟨n, rfl⟩ : ∃ n, p = n + 4 := ⟨p - 4, by omega⟩
  obtain ⟨N, hN⟩ : ∃ N : ℤ, N = 2 ^ n := ⟨_, rfl⟩
  have hN1 : 1 ≤ N := by rw [hN]; exact_mod_cast Nat.one_le_two_pow
  obtain ⟨e, he⟩ : ∃ e : ℝ, e = 1 / 2 ^ (n + 4) := ⟨_, rfl⟩
  have hp2 : (2 : ℤ) ^ (n + 4) = 16 * N := by rw [hN]; ring
  have hNe : 16 * (N : ℝ) * e = 1 := by rw [he, hN, pow_add]; push_cast; field_simp; norm_num
  have he0 : 0 < e := by rw [he]; positivity
  have hd : (1 : ℝ) + 2 / 2 ^ (n + 4) = 1 + 2 * e := by rw [he]; ring
  have sp := spacing (n + 4) he
  rw [hd]
  have s1 : fl (1 + (1 + 2 * e)) = 2 := by
    refine tie' ht (4 * N) 1 (1 - (n + 4 : ℕ)) (sp 1) (Or.inl rfl) ?_ ?_ ?_ ?_
    · push_cast; linear_combination (-2) * hNe
    · push_cast; linear_combination (-2) * hNe
    · rw [hp2]; omega
    · rw [hp2]; omega
  have s2 : fl (2 * 2) = 4 := by
    rw [show (2 : ℝ) * 2 = 4 by norm_num]
    exact exact' hfl hp1 1 2 (g := 4) (by norm_num) (by norm_num) (by rw [hp2, abs_of_pos (by norm_num)]; omega)
  have s3 : fl (4 / 4) = 1 := by
    rw [show (4 : ℝ) / 4 = 1 by norm_num]
    exact exact' hfl hp1 1 0 (g := 1) (by norm_num) (by norm_num) (by rw [hp2, abs_of_pos (by norm_num)]; omega)
  have s4 : fl (1 * (1 + 2 * e)) = 1 + 2 * e := by
    rw [one_mul]
    refine exact' hfl hp1 (8 * N + 1) (1 - (n + 4 : ℕ)) (sp 1) ?_ ?_
    · push_cast; linear_combination (-1) * hNe
    · rw [hp2, abs_of_pos (by omega)]; omega
  have s5 : fl (1 - (1 + 2 * e)) = -(2 * e) := by
    rw [show 1 - (1 + 2 * e) = -(2 * e) by ring]
    refine exact' hfl hp1 (-1) (1 - (n + 4 : ℕ)) (sp 1) ?_ ?_
    · push_cast; ring
    · rw [hp2]; norm_num; omega
  have s6 : fl (0 * 0) = 0 := by rw [zero_mul]; exact hfl.self (isFloat_zero _)
  have s7 : fl (-(2 * e) + 0) = -(2 * e) := by
    rw [add_zero, ← s5]; exact hfl.self (hfl _).1
  rw [spread, s1, s2, s3, s4, s5, s6, s7]
  exact root_none (by linarith)

/-- A positive definite matrix with a minor length that is NaN. -/
theorem minor_nan {p : ℕ} {fl : ℝ → ℝ} (hfl : Rounds p fl) (ht : TiesToEven p fl) (hp : 6 ≤ p) {e : ℝ} (he : e = 1 / 2 ^ p) :
    ∃ l, lengths fl (9 / 8 + 2 * e) (3 / 8 + e) (3 / 8 + e) (1 / 8 + e / 2) = (some l, none) := by
  have hp1 : 1 ≤ p := by omega
  obtain ⟨n, rfl⟩ : ∃ n, p = n + 6 := ⟨p - 6, by omega⟩
  obtain ⟨N, hN⟩ : ∃ N : ℤ, N = 2 ^ n := ⟨_, rfl⟩
  have hN1 : 1 ≤ N := by rw [hN]; exact_mod_cast Nat.one_le_two_pow
  have hp2 : (2 : ℤ) ^ (n + 6) = 64 * N := by rw [hN]; ring
  have hNe : 64 * (N : ℝ) * e = 1 := by rw [he, hN, pow_add]; push_cast; field_simp; norm_num
  have he0 : 0 < e := by rw [he]; positivity
  have he1 : e ≤ 1 / 64 := by
    have : (1 : ℝ) ≤ N := by exact_mod_cast hN1
    nlinarith
  have hee : e * e ≤ e / 64 := by nlinarith
  have hee0 : 0 < e * e := by positivity
  have sp := spacing (n + 6) he
  have s1 : fl (9 / 8 + 2 * e + (1 / 8 + e / 2)) = 5 / 4 + 2 * e := by
    refine near' hfl hp1 (40 * N + 1) (1 - (n + 6 : ℕ)) (sp 1) ?_ ?_ ?_ ?_
    · push_cast; linear_combination (-5 / 4) * hNe
    · rw [hp2]; omega
    · rw [hp2]; omega
    · rw [abs_lt]; constructor <;> norm_num <;> linarith
  have s2 : fl ((5 / 4 + 2 * e) * (5 / 4 + 2 * e)) = 25 / 16 + 6 * e := by
    refine near' hfl hp1 (50 * N + 3) (1 - (n + 6 : ℕ)) (sp 1) ?_ ?_ ?_ ?_
    · push_cast; linear_combination (-25 / 16) * hNe
    · rw [hp2]; omega
    · rw [hp2]; omega
    · rw [abs_lt]; constructor <;> norm_num <;> nlinarith
  have s3 : fl ((25 / 16 + 6 * e) / 4) = 25 / 64 + 3 / 2 * e := by
    rw [show (25 / 16 + 6 * e) / 4 = 25 / 64 + 3 / 2 * e by ring]
    refine exact' hfl hp1 (50 * N + 3) (-1 - (n + 6 : ℕ)) (sp (-1)) ?_ ?_
    · push_cast; norm_num; linear_combination (-25 / 64) * hNe
    · rw [hp2, abs_of_pos (by omega)]; omega
  have s4 : fl ((9 / 8 + 2 * e) * (1 / 8 + e / 2)) = 9 / 64 + 3 / 4 * e := by
    refine near' hfl hp1 (36 * N + 3) (-2 - (n + 6 : ℕ)) (sp (-2)) ?_ ?_ ?_ ?_
    · push_cast; norm_num; linear_combination (-9 / 64) * hNe
    · rw [hp2]; omega
    · rw [hp2]; omega
    · rw [abs_lt]; constructor <;> norm_num <;> nlinarith
  have s5 : fl (25 / 64 + 3 / 2 * e - (9 / 64 + 3 / 4 * e)) = 1 / 4 + e := by
    refine tie' ht (16 * N + 1) (-1) (-2 - (n + 6 : ℕ)) (sp (-2)) (Or.inr rfl) ?_ ?_ ?_ ?_
    · push_cast; norm_num; linear_combination (-1 / 4) * hNe
    · push_cast; norm_num; linear_combination (-1 / 4) * hNe
    · rw [hp2]; omega
    · rw [hp2]; omega
  have s6 : fl ((3 / 8 + e) * (3 / 8 + e)) = 9 / 64 + 3 / 4 * e := by
    refine near' hfl hp1 (36 * N + 3) (-2 - (n + 6 : ℕ)) (sp (-2)) ?_ ?_ ?_ ?_
    · push_cast; norm_num; linear_combination (-9 / 64) * hNe
    · rw [hp2]; omega
    · rw [hp2]; omega
    · rw [abs_lt]; constructor <;> norm_num <;> nlinarith
  have s7 : fl (1 / 4 + e + (9 / 64 + 3 / 4 * e)) = 25 / 64 + 2 * e := by
    refine tie' ht (25 * N + 2) (-1) (-2 - (n + 6 : ℕ)) (sp (-2)) (Or.inr rfl) ?_ ?_ ?_ ?_
    · push_cast; norm_num; linear_combination (-25 / 64) * hNe
    · push_cast; norm_num; linear_combination (-25 / 64) * hNe
    · rw [hp2]; omega
    · rw [hp2]; omega
  have s8 : fl (sqrt (25 / 64 + 2 * e)) = 5 / 8 + 2 * e := by
    refine near' hfl hp1 (40 * N + 2) (0 - (n + 6 : ℕ)) (sp 0) ?_ ?_ ?_ ?_
    · push_cast; norm_num; linear_combination (-5 / 8) * hNe
    · rw [hp2]; omega
    · rw [hp2]; omega
    · have h1 : 5 / 8 + 3 / 2 * e < sqrt (25 / 64 + 2 * e) := by
        apply lt_sqrt_of_sq_lt; nlinarith
      have h2 : sqrt (25 / 64 + 2 * e) < 5 / 8 + 5 / 2 * e := by
        rw [sqrt_lt' (by positivity)]; nlinarith
      rw [abs_lt]; constructor <;> norm_num <;> linarith
  have s9 : fl ((5 / 4 + 2 * e) / 2) = 5 / 8 + e := by
    rw [show (5 / 4 + 2 * e) / 2 = 5 / 8 + e by ring]
    refine exact' hfl hp1 (40 * N + 1) (0 - (n + 6 : ℕ)) (sp 0) ?_ ?_
    · push_cast; norm_num; linear_combination (-5 / 8) * hNe
    · rw [hp2, abs_of_pos (by omega)]; omega
  have s10 : fl (5 / 8 + e - (5 / 8 + 2 * e)) = -e := by
    rw [show 5 / 8 + e - (5 / 8 + 2 * e) = -e by ring]
    refine exact' hfl hp1 (-1) (0 - (n + 6 : ℕ)) (sp 0) ?_ ?_
    · push_cast; ring
    · rw [hp2]; norm_num; omega
  have hs : spread fl (9 / 8 + 2 * e) (3 / 8 + e) (3 / 8 + e) (1 / 8 + e / 2) = some (5 / 8 + 2 * e) := by
    rw [spread, s1, s2, s3, s4, s5, s6, s7, root_some (by positivity), s8]
  have h11 : 0 ≤ fl (5 / 8 + e + (5 / 8 + 2 * e)) := hfl.ge (isFloat_zero _) (by positivity)
  refine ⟨fl (sqrt (fl (5 / 8 + e + (5 / 8 + 2 * e)))), ?_⟩
  rw [lengths, hs, s1, s9]
  simp only [Option.bind_some]
  rw [s10, root_some h11, root_none (by linarith)]

/-- A flat ellipse. -/
theorem flat_zero {p : ℕ} {fl : ℝ → ℝ} (hfl : Rounds p fl) (hp : 4 ≤ p) {δ : ℝ} (h0 : 0 < δ) (hδ : δ < 1 / (16 * 2 ^ p)) :
    lengths fl 1 0 0 δ = (some 1, some 0) := by
  have hp1 : 1 ≤ p := by omega
  obtain ⟨n, rfl⟩ : ∃ n, p = n + 1 := ⟨p - 1, by omega⟩
  have hP : (8 : ℝ) ≤ 2 ^ n := by
    have : (2 : ℝ) ^ 3 ≤ 2 ^ n := pow_le_pow_right₀ (by norm_num) (by omega)
    norm_num at this; exact this
  have hδ' : δ < 1 / 32 * (1 / 2 ^ n) := by rw [pow_succ] at hδ; convert hδ using 1; field_simp; norm_num
  have h2n : (0 : ℝ) < 1 / 2 ^ n := by positivity
  have one : ∀ x : ℝ, |x - 1| < 1 / 4 * (1 / 2 ^ n) → fl x = 1 := by
    intro x hx
    have := hfl.near_pow (x := x) (E := 0) (by rw [zpow_zero]; convert hx using 1; field_simp)
    rwa [zpow_zero] at this
  have pw : ∀ i : ℤ, fl ((2 : ℝ) ^ i) = 2 ^ i := fun i => hfl.self (isFloat_pow (by omega) i)
  have s1 : fl (1 + δ) = 1 := one _ (by rw [add_sub_cancel_left, abs_of_pos h0]; linarith)
  have s2 : fl (1 * 1) = 1 := one _ (by rw [mul_one, sub_self, abs_zero]; positivity)
  have s3 : fl (1 / 4) = 1 / 4 := by have := pw (-2); norm_num at this; norm_num; exact this
  have s4 : 0 ≤ fl (1 * δ) ∧ fl (1 * δ) ≤ 2 * δ := by
    rw [one_mul]
    refine ⟨hfl.ge (isFloat_zero _) h0.le, ?_⟩
    have := hfl.relative hp1 δ
    rw [abs_of_pos h0] at this
    have h3 := (_root_.abs_le.1 this).2
    have : δ / 2 ^ (n + 1) ≤ δ := div_le_self h0.le (one_le_pow₀ (by norm_num))
    linarith
  have quarter : ∀ x : ℝ, |x - 1 / 4| < 1 / 16 * (1 / 2 ^ n) → fl x = 1 / 4 := by
    intro x hx
    have := hfl.near_pow (x := x) (E := -2) (by norm_num; norm_num at hx; convert hx using 1; field_simp; norm_num)
    norm_num at this; rw [this]
  have hm : fl (1 * δ) < 1 / 16 * (1 / 2 ^ n) := by
    linarith [s4.2]
  have s5 : fl (1 / 4 - fl (1 * δ)) = 1 / 4 := quarter _ (by
    rw [show 1 / 4 - fl (1 * δ) - 1 / 4 = -fl (1 * δ) by ring, abs_neg, abs_of_nonneg s4.1]; exact hm)
  have s6 : fl (0 * 0) = 0 := by rw [zero_mul]; exact hfl.self (isFloat_zero _)
  have s7 : fl (1 / 4 + 0) = 1 / 4 := by rw [add_zero]; exact s3
  have sq : sqrt (1 / 4) = 1 / 2 := by rw [show (1 : ℝ) / 4 = (1 / 2) ^ 2 by norm_num]; exact sqrt_sq (by norm_num)
  have s8 : fl (1 / 2) = 1 / 2 := by have := pw (-1); norm_num at this; norm_num; exact this
  have hs : spread fl 1 0 0 δ = some (1 / 2) := by
    rw [spread, s1, s2, s3, s5, s6, s7, root_some (by norm_num), sq, s8]
  rw [lengths, hs, s1, s8]
  simp only [Option.bind_some]
  have s9 : fl (1 / 2 + 1 / 2) = 1 := one _ (by norm_num)
  have s10 : fl (1 / 2 - 1 / 2) = 0 := by rw [sub_self]; exact hfl.self (isFloat_zero _)
  have s11 : fl 1 = 1 := one _ (by rw [sub_self, abs_zero]; positivity)
  have s12 : fl 0 = 0 := hfl.self (isFloat_zero _)
  rw [s9, s10, root_some (by norm_num), root_some le_rfl, sqrt_one, sqrt_zero, s11, s12]

end Ecl.EllipsoidFloat

namespace Ecl.EllipsoidFloat
open Real Ecl.Spec

/-- A matrix with eigenvalues near 1/4 and 1 and a major axis that is computed wrong. -/
theorem axis_wrong {p : ℕ} {fl : ℝ → ℝ} (hfl : Rounds p fl) (hp : 20 ≤ p) {e b : ℝ} (he : e = 1 / 2 ^ p) (hb : b ≠ 0)
    (hbe : |b| ≤ 4 * e ^ 2) :
    (rawAxes fl (1 / 4) b b (1 + 2 * e)).1 = some (-(2 * e), b) ∧ |(normalized fl (-(2 * e), b)).2| ≤ 2 * e := by
  have hp1 : 1 ≤ p := by omega
  have hP20 := half_pow hp
  obtain ⟨n, rfl⟩ : ∃ n, p = n + 6 := ⟨p - 6, by omega⟩
  obtain ⟨N, hN⟩ : ∃ N : ℤ, N = 2 ^ n := ⟨_, rfl⟩
  have hN1 : 1 ≤ N := by rw [hN]; exact_mod_cast Nat.one_le_two_pow
  have hp2 : (2 : ℤ) ^ (n + 6) = 64 * N := by rw [hN]; ring
  have hNe : 64 * (N : ℝ) * e = 1 := by rw [he, hN, pow_add]; push_cast; field_simp; norm_num
  have he0 : 0 < e := by rw [he]; positivity
  rw [← he] at hP20
  have hee : e * e ≤ e / 1000000 := by nlinarith
  have hee0 : 0 < e * e := by positivity
  have sp := spacing (n + 6) he
  have hbb : b * b ≤ e / 1000 := by
    rw [← abs_mul_abs_self b]
    have h1 : 4 * e ^ 2 ≤ e / 100 := by nlinarith
    have h2 : |b| ≤ e / 100 := hbe.trans h1
    have h3 : |b| * |b| ≤ e / 100 * (e / 100) := mul_le_mul h2 h2 (abs_nonneg _) (by positivity)
    nlinarith
  have s1 : fl (1 / 4 + (1 + 2 * e)) = 5 / 4 + 2 * e := by
    rw [show 1 / 4 + (1 + 2 * e) = 5 / 4 + 2 * e by ring]
    refine exact' hfl hp1 (40 * N + 1) (1 - (n + 6 : ℕ)) (sp 1) ?_ ?_
    · push_cast; linear_combination (-5 / 4) * hNe
    · rw [hp2, abs_of_pos (by omega)]; omega
  have s2 : fl ((5 / 4 + 2 * e) * (5 / 4 + 2 * e)) = 25 / 16 + 6 * e := by
    refine near' hfl hp1 (50 * N + 3) (1 - (n + 6 : ℕ)) (sp 1) ?_ ?_ ?_ ?_
    · push_cast; linear_combination (-25 / 16) * hNe
    · rw [hp2]; omega
    · rw [hp2]; omega
    · rw [abs_lt]; constructor <;> norm_num <;> nlinarith
  have s3 : fl ((25 / 16 + 6 * e) / 4) = 25 / 64 + 3 / 2 * e := by
    rw [show (25 / 16 + 6 * e) / 4 = 25 / 64 + 3 / 2 * e by ring]
    refine exact' hfl hp1 (50 * N + 3) (-1 - (n + 6 : ℕ)) (sp (-1)) ?_ ?_
    · push_cast; norm_num; linear_combination (-25 / 64) * hNe
    · rw [hp2, abs_of_pos (by omega)]; omega
  have s4 : fl (1 / 4 * (1 + 2 * e)) = 1 / 4 + e / 2 := by
    rw [show 1 / 4 * (1 + 2 * e) = 1 / 4 + e / 2 by ring]
    refine exact' hfl hp1 (32 * N + 1) (-1 - (n + 6 : ℕ)) (sp (-1)) ?_ ?_
    · push_cast; norm_num; linear_combination (-1 / 4) * hNe
    · rw [hp2, abs_of_pos (by omega)]; omega
  have s5 : fl (25 / 64 + 3 / 2 * e - (1 / 4 + e / 2)) = 9 / 64 + e := by
    rw [show 25 / 64 + 3 / 2 * e - (1 / 4 + e / 2) = 9 / 64 + e by ring]
    refine exact' hfl hp1 (36 * N + 4) (-2 - (n + 6 : ℕ)) (sp (-2)) ?_ ?_
    · push_cast; norm_num; linear_combination (-9 / 64) * hNe
    · rw [hp2, abs_of_pos (by omega)]; omega
  have s6 : 0 ≤ fl (b * b) ∧ fl (b * b) ≤ e / 500 := by
    refine ⟨hfl.ge (isFloat_zero _) (mul_self_nonneg b), ?_⟩
    have h1 := hfl.relative hp1 (b * b)
    rw [abs_of_nonneg (mul_self_nonneg b)] at h1
    have h2 := (_root_.abs_le.1 h1).2
    have : b * b / 2 ^ (n + 6) ≤ b * b := div_le_self (mul_self_nonneg b) (one_le_pow₀ (by norm_num))
    linarith
  have s7 : fl (9 / 64 + e + fl (b * b)) = 9 / 64 + e := by
    refine near' hfl hp1 (36 * N + 4) (-2 - (n + 6 : ℕ)) (sp (-2)) ?_ ?_ ?_ ?_
    · push_cast; norm_num; linear_combination (-9 / 64) * hNe
    · rw [hp2]; omega
    · rw [hp2]; omega
    · rw [abs_lt]; constructor <;> norm_num <;> linarith
  have s8 : fl (sqrt (9 / 64 + e)) = 3 / 8 + 3 / 2 * e := by
    refine near' hfl hp1 (48 * N + 3) (-1 - (n + 6 : ℕ)) (sp (-1)) ?_ ?_ ?_ ?_
    · push_cast; norm_num; linear_combination (-3 / 8) * hNe
    · rw [hp2]; omega
    · rw [hp2]; omega
    · have h1 : 3 / 8 + 5 / 4 * e < sqrt (9 / 64 + e) := by
        apply lt_sqrt_of_sq_lt; nlinarith
      have h2 : sqrt (9 / 64 + e) < 3 / 8 + 7 / 4 * e := by
        rw [sqrt_lt' (by positivity)]; nlinarith
      rw [abs_lt]; constructor <;> norm_num <;> linarith
  have s9 : fl ((5 / 4 + 2 * e) / 2) = 5 / 8 + e := by
    rw [show (5 / 4 + 2 * e) / 2 = 5 / 8 + e by ring]
    refine exact' hfl hp1 (40 * N + 1) (0 - (n + 6 : ℕ)) (sp 0) ?_ ?_
    · push_cast; norm_num; linear_combination (-5 / 8) * hNe
    · rw [hp2, abs_of_pos (by omega)]; omega
  have s10 : fl (5 / 8 + e + (3 / 8 + 3 / 2 * e)) = 1 + 2 * e := by
    refine near' hfl hp1 (32 * N + 1) (1 - (n + 6 : ℕ)) (sp 1) ?_ ?_ ?_ ?_
    · push_cast; linear_combination (-1) * hNe
    · rw [hp2]; omega
    · rw [hp2]; omega
    · rw [abs_lt]; constructor <;> norm_num <;> linarith
  have s11 : fl (sqrt (1 + 2 * e)) = 1 := by
    refine above' hfl hp1 (32 * N) (1 - (n + 6 : ℕ)) (sp 1) ?_ ?_ ?_ ?_ ?_
    · push_cast; linear_combination (-1) * hNe
    · rw [hp2]; omega
    · rw [hp2]; omega
    · exact one_le_sqrt.2 (by linarith)
    · have : sqrt (1 + 2 * e) < 1 + e := by rw [sqrt_lt' (by positivity)]; nlinarith
      norm_num; linarith
  have s12 : fl (1 * 1) = 1 := by
    rw [one_mul]
    exact exact' hfl hp1 1 0 (g := 1) (by norm_num) (by norm_num) (by rw [hp2, abs_of_pos (by norm_num)]; omega)
  have s13 : fl (1 - (1 + 2 * e)) = -(2 * e) := by
    rw [show 1 - (1 + 2 * e) = -(2 * e) by ring]
    refine exact' hfl hp1 (-1) (1 - (n + 6 : ℕ)) (sp 1) ?_ ?_
    · push_cast; ring
    · rw [hp2]; norm_num; omega
  have hs : spread fl (1 / 4) b b (1 + 2 * e) = some (3 / 8 + 3 / 2 * e) := by
    rw [spread, s1, s2, s3, s4, s5, s7, root_some (by positivity), s8]
  have hl : (lengths fl (1 / 4) b b (1 + 2 * e)).1 = some 1 := by
    rw [lengths, hs, s1, s9]
    simp only [Option.bind_some]
    rw [s10, root_some (by positivity), s11]
  constructor
  · rw [rawAxes, if_pos (Or.inl hb), hl, Option.map_some, column, if_pos hb, s12, s13]
  · -- the norm is at least 2 e
    have f1 : IsFloat (n + 6) (2 * e) := by
      have := isFloat_pow (p := n + 6) hp1 (1 - (n + 6 : ℕ))
      rwa [sp 1, zpow_one] at this
    have f2 : IsFloat (n + 6) ((2 * e) * (2 * e)) := by
      have := isFloat_pow (p := n + 6) hp1 ((1 - (n + 6 : ℕ)) + (1 - (n + 6 : ℕ)))
      rwa [zpow_add₀ (by norm_num), sp 1, zpow_one] at this
    have h1 : fl (-(2 * e) * -(2 * e)) = (2 * e) * (2 * e) := by rw [neg_mul_neg]; exact hfl.self f2
    have h2 : (2 * e) * (2 * e) ≤ fl (fl (-(2 * e) * -(2 * e)) + fl (b * b)) := hfl.ge f2 (by rw [h1]; linarith [s6.1])
    have h3 : 2 * e ≤ fl (sqrt (fl (fl (-(2 * e) * -(2 * e)) + fl (b * b)))) :=
      hfl.ge f1 (le_sqrt_of_sq_le (by rw [pow_two]; exact h2))
    change |fl (b / fl (sqrt (fl (fl (-(2 * e) * -(2 * e)) + fl (b * b)))))| ≤ 2 * e
    refine hfl.abs_le f1 ?_
    generalize fl (sqrt (fl (fl (-(2 * e) * -(2 * e)) + fl (b * b)))) = m at h3
    have hm : 0 < m := by linarith
    rw [abs_div, abs_of_pos hm, div_le_iff₀ hm]
    nlinarith

end Ecl.EllipsoidFloat

namespace Ecl.EllipsoidFloat
open Real Ecl.Spec

/-- With ties to even the rounding of a number and of its multiples by powers of two is the same. -/
theorem scale {p : ℕ} {fl : ℝ → ℝ} (hfl : Rounds p fl) (ht : TiesToEven p fl) (hp : 1 ≤ p) {x : ℝ} (hx : 0 < x) (t : ℤ) :
    fl ((2 : ℝ) ^ t * x) = 2 ^ t * fl x := by
  suffices h : ∃ k i : ℤ, ∀ t : ℤ, fl ((2 : ℝ) ^ t * x) = k * 2 ^ (i + t) by
    obtain ⟨k, i, h⟩ := h
    have h0 := h 0
    rw [zpow_zero, one_mul, add_zero] at h0
    rw [h t, h0, zpow_add₀ (by norm_num)]
    ring
  obtain ⟨E, h1, h2⟩ := exists_mem_Ico_zpow hx (by norm_num : (1 : ℝ) < 2)
  obtain ⟨i, hi⟩ : ∃ i : ℤ, i = E + 1 - p := ⟨_, rfl⟩
  have hE : (2 : ℝ) ^ (E + 1) = 2 ^ p * 2 ^ i := by rw [← zpow_natCast, ← zpow_add₀ (by norm_num)]; congr 1; omega
  have hg : (0 : ℝ) < 2 ^ i := by positivity
  have hE2 : (2 : ℝ) ^ (E + 1) = 2 * 2 ^ E := by rw [zpow_add₀ (by norm_num)]; ring
  obtain ⟨y, hy⟩ : ∃ y, y = x / 2 ^ i := ⟨_, rfl⟩
  have hxy : x = y * 2 ^ i := by rw [hy]; field_simp
  have hy1 : (2 : ℝ) ^ p ≤ 2 * y := by
    have : (2 : ℝ) ^ p * 2 ^ i ≤ 2 * y * 2 ^ i := by rw [← hE, hE2, mul_assoc, ← hxy]; linarith
    exact le_of_mul_le_mul_right this hg
  have hy2 : y < 2 ^ p := by
    have : y * 2 ^ i < 2 ^ p * 2 ^ i := by rw [← hE, ← hxy]; exact h2
    exact lt_of_mul_lt_mul_right this hg.le
  obtain ⟨m, hm⟩ : ∃ m, m = ⌊y⌋ := ⟨_, rfl⟩
  have hm1 : (m : ℝ) ≤ y := by rw [hm]; exact Int.floor_le y
  have hm2 : y < m + 1 := by rw [hm]; exact Int.lt_floor_add_one y
  have heven : (2 : ℤ) ^ p = 2 * 2 ^ (p - 1) := by
    conv_lhs => rw [show p = p - 1 + 1 by omega]
    ring
  have hm3 : 2 ^ p ≤ 2 * m := by
    have h3 : ((2 ^ (p - 1) : ℤ) : ℝ) ≤ y := by
      have : ((2 ^ p : ℤ) : ℝ) = 2 * ((2 ^ (p - 1) : ℤ) : ℝ) := by rw [heven]; push_cast; ring
      push_cast at this ⊢
      linarith
    have : (2 : ℤ) ^ (p - 1) ≤ m := by rw [hm]; exact Int.le_floor.2 h3
    omega
  have hm4 : m < 2 ^ p := by
    have : (m : ℝ) < ((2 ^ p : ℤ) : ℝ) := by push_cast; linarith
    exact_mod_cast this
  have pos : ∀ t : ℤ, (0 : ℝ) < 2 ^ (i + t) := fun t => by positivity
  have hxt : ∀ t : ℤ, (2 : ℝ) ^ t * x = y * 2 ^ (i + t) := fun t => by rw [hxy, zpow_add₀ (by norm_num)]; ring
  rcases lt_trichotomy y (m + 1 / 2) with h | h | h
  · refine ⟨m, i, fun t => above' hfl hp m (i + t) rfl rfl hm3 hm4.le ?_ ?_⟩
    · rw [hxt]; exact mul_le_mul_of_nonneg_right hm1 (pos t).le
    · rw [hxt]; nlinarith [pos t]
  · -- a tie
    have hz : ∀ t : ℤ, (2 : ℝ) ^ (i + t) = 2 * 2 ^ (i + t - 1) := fun t => by
      rw [show i + t = i + t - 1 + 1 by ring, zpow_add₀ (by norm_num)]; norm_num; ring
    rcases Int.emod_two_eq_zero_or_one m with hpar | hpar
    · obtain ⟨j, rfl⟩ : ∃ j, m = 2 * j := ⟨m / 2, by omega⟩
      refine ⟨2 * j, i, fun t => tie' ht j 1 (i + t - 1) rfl (Or.inl rfl) ?_ ?_ (by omega) (by omega)⟩
      · rw [hxt, h, hz]; push_cast; ring
      · rw [hz]; push_cast; ring
    · obtain ⟨j, rfl⟩ : ∃ j, m = 2 * j - 1 := ⟨(m + 1) / 2, by omega⟩
      refine ⟨2 * j, i, fun t => tie' ht j (-1) (i + t - 1) rfl (Or.inr rfl) ?_ ?_ (by omega) (by omega)⟩
      · rw [hxt, h, hz]; push_cast; ring
      · rw [hz]; push_cast; ring
  · refine ⟨m + 1, i, fun t => near' hfl hp (m + 1) (i + t) rfl rfl (by omega) (by omega) ?_⟩
    rw [hxt]
    push_cast
    rw [abs_lt]
    constructor <;> nlinarith [pos t]

theorem lengths_round {p : ℕ} {fl : ℝ → ℝ} (hfl : Rounds p fl) (ht : TiesToEven p fl) (hp : 4 ≤ p) {a : ℝ} (ha : 0 ≤ a)
    (hf : IsFloat p a) : lengths fl a 0 0 a = (some (fl (sqrt a)), some (fl (sqrt a))) := by
  have hp1 : 1 ≤ p := by omega
  have z : fl 0 = 0 := hfl.self (isFloat_zero _)
  have s1 : fl (a + a) = 2 * a := by
    have h2 : IsFloat p (2 * a) := by
      obtain ⟨m, e, hm, rfl⟩ := hf
      exact ⟨m, e + 1, hm, by rw [zpow_add₀ (by norm_num)]; ring⟩
    rw [← two_mul]; exact hfl.self h2
  have s2 : fl (fl (2 * a * (2 * a)) / 4) = fl (a * a) := by
    rcases ha.eq_or_lt with h | h
    · rw [← h]; norm_num [z]
    · have := scale hfl ht hp1 (x := a * a) (by positivity) 2
      rw [show 2 * a * (2 * a) = (2 : ℝ) ^ (2 : ℤ) * (a * a) by norm_num; ring, this]
      rw [show (2 : ℝ) ^ (2 : ℤ) * fl (a * a) / 4 = fl (a * a) by norm_num]
      exact hfl.self (hfl _).1
  have hs : spread fl a 0 0 a = some 0 := by
    rw [spread, s1, s2, sub_self, z, zero_mul, z, add_zero, z, root_some le_rfl, sqrt_zero, z]
  have s3 : fl (2 * a / 2) = a := by rw [mul_div_cancel_left₀ _ (by norm_num)]; exact hfl.self hf
  rw [lengths, hs, s1, s3]
  simp only [Option.bind_some]
  rw [add_zero, sub_zero, hfl.self hf, root_some ha]

end Ecl.EllipsoidFloat
