import Verif.Lemmas.RangeQuadratic
import Verif.Lemmas.SegmentFloat

/-! # Distances: the limits of the exponent -/
set_option autoImplicit false

namespace Ecl.SegmentFloat
open Ecl.Spec Ecl.AngleFloat
open Ecl.PolyFloat (abs_mul_pow mul_abs_pow abs_div_pow div_abs_pow add_abs_pow pow_up pow_down)

/-- Zero, or of an absolute value between `2^a` and `2^b`. -/
def Size (a b : ℤ) (x : ℝ) : Prop := x = 0 ∨ (2 : ℝ) ^ a ≤ |x| ∧ |x| ≤ (2 : ℝ) ^ b

theorem Size.le {a b : ℤ} {x : ℝ} (h : Size a b x) : |x| ≤ (2 : ℝ) ^ b := by
  rcases h with rfl | h
  · simp only [abs_zero]; positivity
  · exact h.2

theorem Size.mul {a b c d : ℤ} {x y : ℝ} (hx : Size a b x) (hy : Size c d y) : Size (a + c) (b + d) (x * y) := by
  rcases hx with rfl | hx
  · exact .inl (zero_mul _)
  rcases hy with rfl | hy
  · exact .inl (mul_zero _)
  exact .inr ⟨abs_mul_pow hx.1 hy.1, mul_abs_pow hx.2 hy.2⟩

theorem Size.div {a b c d : ℤ} {x y : ℝ} (hx : Size a b x) (hy : Size c d y) (h0 : y ≠ 0) : Size (a - d) (b - c) (x / y) := by
  rcases hx with rfl | hx
  · exact .inl (zero_div _)
  have hy' := hy.resolve_left h0
  exact .inr ⟨abs_div_pow hx.1 hy'.2 h0, div_abs_pow hx.2 hy'.1⟩

theorem Size.round {p : ℕ} {fl1 : ℝ → ℝ} (h1 : Rounds p fl1) (hp : 1 ≤ p) {a b : ℤ} {x : ℝ} (h : Size a b x) :
    Size a b (fl1 x) := by
  rcases h with rfl | h
  · exact .inl (h1.self (isFloat_zero p))
  · exact .inr ⟨h1.abs_ge (isFloat_pow hp _) h.1, h1.abs_le (isFloat_pow hp _) h.2⟩

theorem Size.grid {p : ℕ} {fl1 : ℝ → ℝ} (h1 : Rounds p fl1) (hp : 1 ≤ p) {a b : ℤ} {x : ℝ} (h : Size a b x) :
    ∃ k : ℤ, fl1 x = k * (2 : ℝ) ^ (a + 1 - p) := by
  rcases h with rfl | h
  · exact ⟨0, by rw [h1.self (isFloat_zero p)]; simp⟩
  · exact (h1 x).1.grid (h1.abs_ge (isFloat_pow hp _) h.1)

theorem Size.of_multiple {a b : ℤ} {x : ℝ} (h : ∃ k : ℤ, x = k * (2 : ℝ) ^ a) (hb : |x| ≤ (2 : ℝ) ^ b) : Size a b x := by
  by_cases h0 : x = 0
  · exact .inl h0
  · exact .inr ⟨multiple_ge h h0, hb⟩

theorem Size.safe {a b : ℤ} {x : ℝ} (h : Size a b x) (ha : -1022 ≤ a) (hb : b ≤ 1023) : Safe 53 (-1074) 1024 x := by
  rcases h with rfl | h
  · exact safe_double_multiple (e := 0) (f := 0) ⟨0, by simp⟩ (by simp) (by norm_num) (by norm_num)
  · exact safe_double h.1 h.2 ha hb

theorem Size.safe_single {a b : ℤ} {x : ℝ} (h : Size a b x) (ha : -126 ≤ a) (hb : b ≤ 127) : Safe 24 (-149) 128 x := by
  rcases h with rfl | h
  · exact safe_single_multiple (e := 0) (f := 0) ⟨0, by simp⟩ (by simp) (by norm_num) (by norm_num)
  · exact AngleFloat.safe_single h.1 h.2 ha hb

theorem Size.mono {a b c d : ℤ} {x : ℝ} (h : Size a b x) (hc : c ≤ a) (hd : b ≤ d) : Size c d x := by
  rcases h with rfl | h
  · exact .inl rfl
  · exact .inr ⟨pow_down h.1 hc, pow_up h.2 hd⟩

/-- Floats: what is used of them. -/
theorem InFormat.float {x : ℝ} (h : InFormat 24 (-149) 128 x) :
    (∃ k : ℤ, x = k * (2 : ℝ) ^ (-149 : ℤ)) ∧ |x| ≤ (2 : ℝ) ^ (128 : ℤ) :=
  ⟨h.multiple, h.abs_le.trans (largest_lt 24 128).le⟩

/-! ## Distances of poses, in float -/

theorem squares_agrees {fs fs1 : ℝ → ℝ} (h2 : Rounds 24 fs1) (has : ∀ x, Safe 24 (-149) 128 x → fs x = fs1 x)
    {x y px py : ℝ} (hx : Size (-60) 60 (x - px)) (hy : Size (-60) 60 (y - py)) :
    squares fs x y px py = squares fs1 x y px py ∧
    fs (Real.sqrt (squares fs x y px py)) = fs1 (Real.sqrt (squares fs1 x y px py)) := by
  have hp : 1 ≤ 24 := by norm_num
  have hu := hx.round h2 hp
  have hv := hy.round h2 hp
  have huu := hu.mul hu
  have hvv := hv.mul hv
  have hs : Safe 24 (-149) 128 (fs1 (fs1 (x - px) * fs1 (x - px)) + fs1 (fs1 (y - py) * fs1 (y - py))) := by
    refine safe_single_multiple (e := -143) (f := 121) (multiple_add ?_ ?_) ?_ (by norm_num) (by norm_num)
    · exact multiple_of_le (by norm_num) (huu.grid h2 hp)
    · exact multiple_of_le (by norm_num) (hvv.grid h2 hp)
    · exact add_abs_pow (huu.round h2 hp).le (hvv.round h2 hp).le
  have e : squares fs x y px py = squares fs1 x y px py := by
    unfold squares
    rw [has _ (hx.safe_single (by norm_num) (by norm_num)), has _ (hy.safe_single (by norm_num) (by norm_num)),
      has _ (huu.safe_single (by norm_num) (by norm_num)), has _ (hvv.safe_single (by norm_num) (by norm_num)), has _ hs]
  refine ⟨e, ?_⟩
  rw [e]
  refine has _ ?_
  have hf := (hs.rounded hp (by norm_num) h2)
  have hS : Size (-149) 128 (squares fs1 x y px py) := .of_multiple hf.multiple (InFormat.float hf).2
  have h0 := squares_nonneg h2 hp x y px py
  have hr : Size (-75) 64 (Real.sqrt (squares fs1 x y px py)) := by
    rcases hS with h | h
    · exact .inl (by rw [h, Real.sqrt_zero])
    · rw [abs_of_nonneg h0] at h
      have hn := Real.sqrt_nonneg (squares fs1 x y px py)
      refine .inr ⟨?_, ?_⟩
      · rw [abs_of_nonneg hn]
        exact PolyFloat.le_sqrt_pow (le_trans (zpow_le_zpow_right₀ (by norm_num) (by norm_num)) h.1)
      · rw [abs_of_nonneg hn]
        exact PolyFloat.sqrt_pow_le (h.2.trans (zpow_le_zpow_right₀ (by norm_num) (by norm_num)))
  exact hr.safe_single (by norm_num) (by norm_num)

/-! ## Distances to trajectories, in double -/

theorem diff_size {a b : ℝ} (ha : InFormat 24 (-149) 128 a) (hb : InFormat 24 (-149) 128 b) : Size (-149) 129 (a - b) := by
  refine .of_multiple (multiple_sub ha.multiple hb.multiple) ?_
  rw [sub_eq_add_neg]
  exact add_abs_pow (InFormat.float ha).2 (by rw [abs_neg]; exact (InFormat.float hb).2)

/-- A sum of two rounded products of differences. -/
theorem dot_size {fl1 : ℝ → ℝ} (h1 : Rounds 53 fl1) {a b c d : ℝ} (ha : Size (-149) 129 a) (hb : Size (-149) 129 b)
    (hc : Size (-149) 129 c) (hd : Size (-149) 129 d) :
    Size (-298) 258 (fl1 a * fl1 b) ∧ Size (-298) 258 (fl1 c * fl1 d) ∧
    Size (-350) 259 (fl1 (fl1 a * fl1 b) + fl1 (fl1 c * fl1 d)) := by
  have hp : 1 ≤ 53 := by norm_num
  have h2 := (ha.round h1 hp).mul (hb.round h1 hp)
  have h3 := (hc.round h1 hp).mul (hd.round h1 hp)
  refine ⟨h2, h3, .of_multiple (multiple_add ?_ ?_) ?_⟩
  · exact multiple_of_le (by norm_num) (h2.grid h1 hp)
  · exact multiple_of_le (by norm_num) (h3.grid h1 hp)
  · exact add_abs_pow (h2.round h1 hp).le (h3.round h1 hp).le

/-- The nearest point is the one of arithmetic without limits, and its coordinates are doubles of ordinary size. -/
theorem nearest_agrees {fl fl1 : ℝ → ℝ} (h1 : Rounds 53 fl1) (hag : ∀ x, Safe 53 (-1074) 1024 x → fl x = fl1 x)
    {x1 y1 x2 y2 x y : ℝ} (hx1 : InFormat 24 (-149) 128 x1) (hy1 : InFormat 24 (-149) 128 y1)
    (hx2 : InFormat 24 (-149) 128 x2) (hy2 : InFormat 24 (-149) 128 y2)
    (hx : InFormat 24 (-149) 128 x) (hy : InFormat 24 (-149) 128 y) :
    nearest fl x1 y1 x2 y2 x y = nearest fl1 x1 y1 x2 y2 x y ∧
    ((∃ k : ℤ, (nearest fl1 x1 y1 x2 y2 x y).1 = k * (2 : ℝ) ^ (-1074 : ℤ)) ∧
      |(nearest fl1 x1 y1 x2 y2 x y).1| ≤ (2 : ℝ) ^ (130 : ℤ)) ∧
    ((∃ k : ℤ, (nearest fl1 x1 y1 x2 y2 x y).2 = k * (2 : ℝ) ^ (-1074 : ℤ)) ∧
      |(nearest fl1 x1 y1 x2 y2 x y).2| ≤ (2 : ℝ) ^ (130 : ℤ)) := by
  have hp : 1 ≤ 53 := by norm_num
  have dx := diff_size hx hx1
  have dy := diff_size hy hy1
  have ex := diff_size hx2 hx1
  have ey := diff_size hy2 hy1
  obtain ⟨p1, p2, p3⟩ := dot_size h1 dx ex dy ey
  obtain ⟨q1, q2, q3⟩ := dot_size h1 ex ex ey ey
  have safe (z : ℝ) (h : Size (-149) 129 z) : fl z = fl1 z := hag _ (h.safe (by norm_num) (by norm_num))
  have safe2 (z : ℝ) (h : Size (-298) 258 z) : fl z = fl1 z := hag _ (h.safe (by norm_num) (by norm_num))
  have safe3 (z : ℝ) (h : Size (-350) 259 z) : fl z = fl1 z := hag _ (h.safe (by norm_num) (by norm_num))
  have far (z : ℝ) (h : InFormat 24 (-149) 128 z) :
      (∃ k : ℤ, z = k * (2 : ℝ) ^ (-1074 : ℤ)) ∧ |z| ≤ (2 : ℝ) ^ (130 : ℤ) :=
    ⟨multiple_of_le (by norm_num) h.multiple, pow_up (InFormat.float h).2 (by norm_num)⟩
  unfold nearest
  rw [safe _ dx, safe _ dy, safe _ ex, safe _ ey, safe2 _ p1, safe2 _ p2, safe2 _ q1, safe2 _ q2, safe3 _ p3, safe3 _ q3]
  dsimp only
  have r3 := p3.round h1 hp
  have s3 := q3.round h1 hp
  generalize fl1 (fl1 (fl1 (x - x1) * fl1 (x2 - x1)) + fl1 (fl1 (y - y1) * fl1 (y2 - y1))) = dot at *
  generalize fl1 (fl1 (fl1 (x2 - x1) * fl1 (x2 - x1)) + fl1 (fl1 (y2 - y1) * fl1 (y2 - y1))) = sq at *
  have ht : (if sq ≠ 0 then fl (dot / sq) else -1) = (if sq ≠ 0 then fl1 (dot / sq) else -1) := by
    split
    next h => exact hag _ ((r3.div s3 h).safe (by norm_num) (by norm_num))
    · rfl
  rw [ht]
  have hts : ¬ (if sq ≠ 0 then fl1 (dot / sq) else -1) < 0 → ¬ (if sq ≠ 0 then fl1 (dot / sq) else -1) > 1 →
      Size (-609) 0 (if sq ≠ 0 then fl1 (dot / sq) else -1) := by
    intro h0 hle
    split at h0
    next h =>
      rw [if_pos h] at hle ⊢
      rcases (r3.div s3 h).round h1 hp with h3 | h3
      · exact .inl h3
      · refine .inr ⟨h3.1, ?_⟩
        rw [abs_of_nonneg (not_lt.1 h0)]
        simpa using not_lt.1 hle
    next h => norm_num at h0
  generalize (if sq ≠ 0 then fl1 (dot / sq) else -1) = t at *
  split
  · exact ⟨rfl, far _ hx1, far _ hy1⟩
  next hneg =>
    split
    · exact ⟨rfl, far _ hx2, far _ hy2⟩
    next hle =>
      have htt := hts hneg hle
      have key (a d : ℝ) (ha : InFormat 24 (-149) 128 a) (hd : Size (-149) 129 d) :
          fl (a + fl (t * fl1 d)) = fl1 (a + fl1 (t * fl1 d)) ∧
          (∃ k : ℤ, fl1 (a + fl1 (t * fl1 d)) = k * (2 : ℝ) ^ (-1074 : ℤ)) ∧
          |fl1 (a + fl1 (t * fl1 d))| ≤ (2 : ℝ) ^ (130 : ℤ) := by
        have hm := htt.mul (hd.round h1 hp)
        rw [hag _ (hm.safe (by norm_num) (by norm_num))]
        have hsum : Size (-810) 130 (a + fl1 (t * fl1 d)) := by
          refine .of_multiple (multiple_add (multiple_of_le (by norm_num) ha.multiple) ?_) ?_
          · exact multiple_of_le (by norm_num) (hm.grid h1 hp)
          · exact add_abs_pow (pow_up (InFormat.float ha).2 (by norm_num)) (hm.round h1 hp).le
        exact ⟨hag _ (hsum.safe (by norm_num) (by norm_num)), multiple_of_le (by norm_num) (hsum.grid h1 hp),
          (hsum.round h1 hp).le⟩
      obtain ⟨a1, a2⟩ := key x1 (x2 - x1) hx1 ex
      obtain ⟨b1, b2⟩ := key y1 (y2 - y1) hy1 ey
      exact ⟨by rw [a1, b1], a2, b2⟩

/-- The rounding of a sum of squares: the error of the products may be absolute. -/
theorem squares_range {fl fl1 : ℝ → ℝ} (hfl : RoundsDouble fl) (h1 : Rounds 53 fl1)
    (hag : ∀ x, Safe 53 (-1074) 1024 x → fl x = fl1 x) {x y px py : ℝ}
    (hx : (∃ k : ℤ, x = k * (2 : ℝ) ^ (-1074 : ℤ)) ∧ |x| ≤ (2 : ℝ) ^ (130 : ℤ))
    (hy : (∃ k : ℤ, y = k * (2 : ℝ) ^ (-1074 : ℤ)) ∧ |y| ≤ (2 : ℝ) ^ (130 : ℤ))
    (hpx : (∃ k : ℤ, px = k * (2 : ℝ) ^ (-1074 : ℤ)) ∧ |px| ≤ (2 : ℝ) ^ (130 : ℤ))
    (hpy : (∃ k : ℤ, py = k * (2 : ℝ) ^ (-1074 : ℤ)) ∧ |py| ≤ (2 : ℝ) ^ (130 : ℤ)) :
    0 ≤ squares fl x y px py ∧
    |Real.sqrt (squares fl x y px py) - len (x - px) (y - py)| ≤
      4 / 2 ^ 53 * len (x - px) (y - py) + (2 : ℝ) ^ (-536 : ℤ) := by
  have hp : 1 ≤ 53 := by norm_num
  have diff (a b : ℝ) (ha : (∃ k : ℤ, a = k * (2 : ℝ) ^ (-1074 : ℤ)) ∧ |a| ≤ (2 : ℝ) ^ (130 : ℤ))
      (hb : (∃ k : ℤ, b = k * (2 : ℝ) ^ (-1074 : ℤ)) ∧ |b| ≤ (2 : ℝ) ^ (130 : ℤ)) :
      fl (a - b) = fl1 (a - b) ∧ |fl1 (a - b)| ≤ (2 : ℝ) ^ (131 : ℤ) := by
    have h2 : |a - b| ≤ (2 : ℝ) ^ (131 : ℤ) := by
      rw [sub_eq_add_neg]
      exact add_abs_pow ha.2 (by rw [abs_neg]; exact hb.2)
    exact ⟨hag _ (safe_double_multiple (multiple_sub ha.1 hb.1) h2 (by norm_num) (by norm_num)),
      h1.abs_le (isFloat_pow hp _) h2⟩
  obtain ⟨eu, hu⟩ := diff x px hx hpx
  obtain ⟨ev, hv⟩ := diff y py hy hpy
  unfold squares
  rw [eu, ev]
  have ru := h1.relative hp (x - px)
  have rv := h1.relative hp (y - py)
  generalize fl1 (x - px) = u at *
  generalize fl1 (y - py) = v at *
  -- the products
  have prod (w : ℝ) (hw : |w| ≤ (2 : ℝ) ^ (131 : ℤ)) : InFormat 53 (-1074) 1024 (fl (w * w)) ∧
      |fl (w * w) - w ^ 2| ≤ w ^ 2 / 2 ^ 53 + 2 ^ (-1075 : ℤ) ∧ 0 ≤ fl (w * w) ∧ |fl (w * w)| ≤ (2 : ℝ) ^ (262 : ℤ) := by
    have hb : |w * w| ≤ (2 : ℝ) ^ (262 : ℤ) := mul_abs_pow hw hw
    have hl := hb.trans (large_double (by norm_num))
    have he := hfl.error hl
    have h2 : w * w = w ^ 2 := by ring
    rw [abs_of_nonneg (mul_self_nonneg w), h2] at he
    obtain ⟨i1, i2⟩ := hfl _ hl
    rw [h2] at i1 i2 ⊢
    refine ⟨i1, he, ?_, ?_⟩
    · by_contra hn
      have h3 := i2 0 (inFormat_zero (by norm_num))
      rw [abs_of_neg (by nlinarith [sq_nonneg w]), zero_sub, abs_neg, abs_of_nonneg (sq_nonneg w)] at h3
      linarith
    · have h262 : InFormat 53 (-1074) 1024 ((2 : ℝ) ^ (262 : ℤ)) :=
        ⟨1, 262, by norm_num, by norm_num, by norm_num, by simp⟩
      rw [h2, abs_of_nonneg (sq_nonneg w)] at hb
      by_contra hn
      rw [not_le] at hn
      have h3 := i2 _ h262
      rw [abs_of_nonneg (by linarith : 0 ≤ (2 : ℝ) ^ (262 : ℤ) - w ^ 2)] at h3
      rcases lt_abs.1 hn with h4 | h4
      · have := le_abs_self (fl (w ^ 2) - w ^ 2)
        linarith
      · have := neg_le_abs (fl (w ^ 2) - w ^ 2)
        have := sq_nonneg w
        linarith
  obtain ⟨iu, pu, pu0, bu⟩ := prod u hu
  obtain ⟨iv, pv, pv0, bv⟩ := prod v hv
  have hsum : Safe 53 (-1074) 1024 (fl (u * u) + fl (v * v)) :=
    safe_double_multiple (multiple_add iu.multiple iv.multiple) (add_abs_pow bu bv) (by norm_num) (by norm_num)
  rw [hag _ hsum]
  have rs := h1.relative hp (fl (u * u) + fl (v * v))
  rw [abs_of_nonneg (add_nonneg pu0 pv0)] at rs
  generalize fl (u * u) = U at *
  generalize fl (v * v) = V at *
  generalize fl1 (U + V) = S at *
  have hS0 : 0 ≤ S := by
    have h2 := (abs_le.1 rs).1
    have h3 : (U + V) / 2 ^ 53 ≤ U + V := div_le_self (by linarith) (by norm_num)
    linarith
  refine ⟨hS0, ?_⟩
  have hη : (2 : ℝ) ^ (-536 : ℤ) * (2 : ℝ) ^ (-536 : ℤ) = 8 * 2 ^ (-1075 : ℤ) := by
    rw [← zpow_add₀ (by norm_num), show (-536 : ℤ) + -536 = 3 + -1075 by norm_num, zpow_add₀ (by norm_num)]
    norm_num
  have hη0 : (0 : ℝ) < 2 ^ (-1075 : ℤ) := by positivity
  have hδ0 : (0 : ℝ) < 2 ^ (-536 : ℤ) := by positivity
  generalize (2 : ℝ) ^ (-1075 : ℤ) = η at *
  generalize (2 : ℝ) ^ (-536 : ℤ) = δ at *
  have hL0 := len_nonneg (x - px) (y - py)
  have hL := len_sq (x - px) (y - py)
  generalize len (x - px) (y - py) = L at *
  generalize x - px = a at *
  generalize y - py = b at *
  have sq_err (z z' : ℝ) (h : |z' - z| ≤ |z| / 2 ^ 53) :
      z' ^ 2 ≤ (1 + 1 / 2 ^ 53) ^ 2 * z ^ 2 ∧ (1 - 1 / 2 ^ 53) ^ 2 * z ^ 2 ≤ z' ^ 2 := by
    have h3 : |z'| ≤ (1 + 1 / 2 ^ 53) * |z| := by
      have := abs_add_le (z' - z) z
      rw [sub_add_cancel] at this
      rw [add_mul, one_mul, div_mul_eq_mul_div, one_mul]
      linarith
    have h4 : (1 - 1 / 2 ^ 53) * |z| ≤ |z'| := by
      have := abs_sub_abs_le_abs_sub z z'
      rw [abs_sub_comm] at this
      rw [sub_mul, one_mul, div_mul_eq_mul_div, one_mul]
      linarith
    constructor
    · rw [← sq_abs z', ← sq_abs z, ← mul_pow]
      exact pow_le_pow_left₀ (abs_nonneg _) h3 2
    · rw [← sq_abs z', ← sq_abs z, ← mul_pow]
      exact pow_le_pow_left₀ (mul_nonneg (by norm_num) (abs_nonneg _)) h4 2
  obtain ⟨a1, a2⟩ := sq_err a u ru
  obtain ⟨b1, b2⟩ := sq_err b v rv
  obtain ⟨pu1, pu2⟩ := abs_le.1 pu
  obtain ⟨pv1, pv2⟩ := abs_le.1 pv
  obtain ⟨s1, s2⟩ := abs_le.1 rs
  clear sq_err prod diff pu pv rs hag hfl h1 hsum iu iv bu bv hu hv ru rv eu ev hx hy hpx hpy
  have hε0 : (0 : ℝ) < 1 / 2 ^ 53 := by norm_num
  have hε1 : (1 : ℝ) / 2 ^ 53 ≤ 1 / 16 := by norm_num
  have e4 : (4 : ℝ) / 2 ^ 53 = 4 * (1 / 2 ^ 53) := by norm_num
  rw [e4]
  rw [div_eq_mul_one_div] at pu1 pu2 pv1 pv2 s1 s2
  generalize (1 : ℝ) / 2 ^ 53 = ε at *
  have up : S ≤ (1 + ε) ^ 4 * L ^ 2 + 8 * η := by
    have hUV : U + V ≤ (1 + ε) ^ 3 * L ^ 2 + 2 * η := by
      have h2 : (1 + ε) * (u ^ 2 + v ^ 2) ≤ (1 + ε) * ((1 + ε) ^ 2 * L ^ 2) :=
        mul_le_mul_of_nonneg_left (by rw [hL]; linarith) (by linarith)
      have h3 : (1 + ε) * ((1 + ε) ^ 2 * L ^ 2) = (1 + ε) ^ 3 * L ^ 2 := by ring
      linarith
    have h2 := mul_le_mul_of_nonneg_left hUV (by linarith : 0 ≤ 1 + ε)
    have h3 : (1 + ε) * ((1 + ε) ^ 3 * L ^ 2 + 2 * η) = (1 + ε) ^ 4 * L ^ 2 + 2 * η + 2 * (ε * η) := by ring
    have h4 : ε * η ≤ 1 / 16 * η := mul_le_mul_of_nonneg_right hε1 hη0.le
    linarith
  have down : (1 - ε) ^ 4 * L ^ 2 - 8 * η ≤ S := by
    have hUV : (1 - ε) ^ 3 * L ^ 2 - 2 * η ≤ U + V := by
      have h2 : (1 - ε) * ((1 - ε) ^ 2 * L ^ 2) ≤ (1 - ε) * (u ^ 2 + v ^ 2) :=
        mul_le_mul_of_nonneg_left (by rw [hL]; linarith) (by linarith)
      have h3 : (1 - ε) * ((1 - ε) ^ 2 * L ^ 2) = (1 - ε) ^ 3 * L ^ 2 := by ring
      linarith
    have h2 := mul_le_mul_of_nonneg_left hUV (by linarith : 0 ≤ 1 - ε)
    have h3 : (1 - ε) * ((1 - ε) ^ 3 * L ^ 2 - 2 * η) = (1 - ε) ^ 4 * L ^ 2 - 2 * η + 2 * (ε * η) := by ring
    have h4 : 0 ≤ ε * η := by positivity
    linarith
  have hεε : ε ^ 2 ≤ ε := by nlinarith
  have hεL : ε ^ 2 * L ≤ ε * L := mul_le_mul_of_nonneg_right hεε hL0
  have hε2 : 0 ≤ ε ^ 2 * L := by positivity
  have hεL0 : 0 ≤ ε * L := by positivity
  rw [abs_le]
  constructor
  · by_cases hc : (1 - ε) ^ 2 * L ≤ δ
    · have := Real.sqrt_nonneg S
      have h2 : (1 - ε) ^ 2 * L = L - 2 * (ε * L) + ε ^ 2 * L := by ring
      linarith
    · rw [not_le] at hc
      have h3 : (1 - ε) ^ 2 * L - δ ≤ Real.sqrt S := by
        refine Real.le_sqrt_of_sq_le (le_trans ?_ down)
        nlinarith [mul_le_mul_of_nonneg_left hc.le hδ0.le]
      have h2 : (1 - ε) ^ 2 * L = L - 2 * (ε * L) + ε ^ 2 * L := by ring
      linarith
  · have h3 : Real.sqrt S ≤ (1 + ε) ^ 2 * L + δ := by
      refine Real.sqrt_le_iff.2 ⟨by positivity, le_trans up ?_⟩
      have : 0 ≤ (1 + ε) ^ 2 * L * δ := by positivity
      nlinarith
    have h2 : (1 + ε) ^ 2 * L = L + 2 * (ε * L) + ε ^ 2 * L := by ring
    linarith

end Ecl.SegmentFloat
