import Verif.Lemmas.Range
import Verif.Lemmas.AngleFloat

/-! # Angles: the limits of the exponent -/
set_option autoImplicit false

namespace Ecl.AngleFloat
open Ecl.Spec
open Ecl.Angle (fmod truncQuot)

theorem large_double {e : ℤ} (he : e ≤ 1023) : (2 : ℝ) ^ e ≤ largest 53 1024 :=
  (zpow_le_zpow_right₀ (by norm_num) he).trans (le_largest (by norm_num) 1024)

theorem large_single {e : ℤ} (he : e ≤ 127) : (2 : ℝ) ^ e ≤ largest 24 128 :=
  (zpow_le_zpow_right₀ (by norm_num) he).trans (le_largest (by norm_num) 128)

/-- Arguments of ordinary size are safe. -/
theorem safe_double {x : ℝ} {e f : ℤ} (h1 : (2 : ℝ) ^ e ≤ |x|) (h2 : |x| ≤ (2 : ℝ) ^ f) (he : -1022 ≤ e) (hf : f ≤ 1023) :
    Safe 53 (-1074) 1024 x :=
  ⟨h2.trans (large_double hf), .inl ((zpow_le_zpow_right₀ (by norm_num) (by norm_num; exact he)).trans h1)⟩

theorem safe_single {x : ℝ} {e f : ℤ} (h1 : (2 : ℝ) ^ e ≤ |x|) (h2 : |x| ≤ (2 : ℝ) ^ f) (he : -126 ≤ e) (hf : f ≤ 127) :
    Safe 24 (-149) 128 x :=
  ⟨h2.trans (large_single hf), .inl ((zpow_le_zpow_right₀ (by norm_num) (by norm_num; exact he)).trans h1)⟩

/-- So are multiples of a power of two that is not too small. -/
theorem safe_double_multiple {x : ℝ} {e f : ℤ} (h1 : ∃ k : ℤ, x = k * (2 : ℝ) ^ e) (h2 : |x| ≤ (2 : ℝ) ^ f)
    (he : -1074 ≤ e) (hf : f ≤ 1023) : Safe 53 (-1074) 1024 x :=
  ⟨h2.trans (large_double hf), .inr (multiple_of_le he h1)⟩

theorem safe_single_multiple {x : ℝ} {e f : ℤ} (h1 : ∃ k : ℤ, x = k * (2 : ℝ) ^ e) (h2 : |x| ≤ (2 : ℝ) ^ f)
    (he : -149 ≤ e) (hf : f ≤ 127) : Safe 24 (-149) 128 x :=
  ⟨h2.trans (large_single hf), .inr (multiple_of_le he h1)⟩

theorem fmod_multiple {x y : ℝ} {a : ℤ} (hx : ∃ k : ℤ, x = k * (2 : ℝ) ^ a) (hy : ∃ k : ℤ, y = k * (2 : ℝ) ^ a) :
    ∃ k : ℤ, fmod x y = k * (2 : ℝ) ^ a := by
  unfold fmod
  exact multiple_sub hx (multiple_int _ hy)

theorem piD_multiple : ∃ k : ℤ, piD = k * (2 : ℝ) ^ (-48 : ℤ) :=
  ⟨884279719003555, by rw [piD_val]; norm_num⟩

theorem piD_bounds : 3.1415926 < piD ∧ piD < 3.1415927 := by
  constructor <;> · unfold piD; norm_num

theorem fmod_small {s q : ℝ} (hq : 0 < q) : |fmod s q| ≤ q := by
  rcases le_or_gt 0 s with hs | hs
  · have := fmod_nonneg hs hq
    exact abs_le.2 ⟨by linarith, by linarith⟩
  · have := fmod_nonpos hs hq
    exact abs_le.2 ⟨by linarith, by linarith⟩

/-- One branch of `wrapD`. -/
theorem branch_double {fl fl1 : ℝ → ℝ} (h1 : Rounds 53 fl1) (hag : ∀ x, Safe 53 (-1074) 1024 x → fl x = fl1 x)
    {u c : ℝ} (hu : 4 ≤ |u|) (hu2 : |u| ≤ 2 ^ (1023 : ℤ)) (hc : c = piD ∨ c = -piD) :
    fl (fmod (fl u) (fl (2 * piD)) + c) = fl1 (fmod (fl1 u) (fl1 (2 * piD)) + c) := by
  have hb := piD_bounds
  have hpi : fl1 (2 * piD) = 2 * piD := h1.self two_piD_double
  have hs1 : Safe 53 (-1074) 1024 u := safe_double (e := 2) (f := 1023) (by norm_num; exact hu) hu2 (by norm_num) le_rfl
  have hs2 : Safe 53 (-1074) 1024 (2 * piD) := by
    refine safe_double_multiple (e := -48) (f := 3) ?_ ?_ (by norm_num) (by norm_num)
    · obtain ⟨k, hk⟩ := piD_multiple
      exact ⟨2 * k, by rw [hk]; push_cast; ring⟩
    · rw [abs_of_pos (by norm_num at hb; linarith)]
      norm_num at hb ⊢
      linarith
  rw [hag u hs1, hag _ hs2, hpi]
  refine hag _ ?_
  have hm : ∃ k : ℤ, fl1 u = k * (2 : ℝ) ^ (-50 : ℤ) :=
    (h1 u).1.grid (E := 2) (h1.abs_ge (isFloat_pow (by norm_num) 2) (by norm_num; exact hu))
  have hc' : ∃ k : ℤ, c = k * (2 : ℝ) ^ (-50 : ℤ) := by
    have := multiple_of_le (b := -50) (by norm_num) piD_multiple
    rcases hc with rfl | rfl
    · exact this
    · exact multiple_neg this
  have h2 : ∃ k : ℤ, 2 * piD = k * (2 : ℝ) ^ (-50 : ℤ) := by
    have := multiple_int 2 (multiple_of_le (b := -50) (by norm_num) piD_multiple)
    exact_mod_cast this
  refine safe_double_multiple (e := -50) (f := 4) (multiple_add (fmod_multiple hm h2) hc') ?_ (by norm_num) (by norm_num)
  have h3 := fmod_small (s := fl1 u) (q := 2 * piD) (by norm_num at hb; linarith)
  have h4 : |c| = piD := by
    rcases hc with rfl | rfl
    · exact abs_of_pos (by norm_num at hb; linarith)
    · rw [abs_neg]
      exact abs_of_pos (by norm_num at hb; linarith)
  have h5 := abs_add_le (fmod (fl1 u) (2 * piD)) c
  norm_num at hb ⊢
  linarith

theorem wrapD_agrees {fl fl1 : ℝ → ℝ} (h1 : Rounds 53 fl1) (hag : ∀ x, Safe 53 (-1074) 1024 x → fl x = fl1 x)
    {a : ℝ} (ha : |a| ≤ 2 ^ (1022 : ℤ)) : wrapD fl a = wrapD fl1 a := by
  have hb := piD_bounds
  have hbig : (2 : ℝ) ^ (1023 : ℤ) = 2 ^ (1022 : ℤ) + 2 ^ (1022 : ℤ) := by
    rw [show (1023 : ℤ) = 1022 + 1 by norm_num, zpow_add₀ (by norm_num)]; ring
  have h4 : (4 : ℝ) ≤ 2 ^ (1022 : ℤ) := by
    have : (2 : ℝ) ^ (2 : ℤ) ≤ 2 ^ (1022 : ℤ) := zpow_le_zpow_right₀ (by norm_num) (by norm_num)
    norm_num at this ⊢
    exact this
  generalize (2 : ℝ) ^ (1022 : ℤ) = B at ha hbig h4
  have hab := abs_le.1 ha
  norm_num at hb
  unfold wrapD
  split
  · rfl
  next hn =>
    split
    next h0 =>
      have hlt : a < -piD := by
        by_contra h
        exact hn ⟨by linarith, by linarith⟩
      refine branch_double h1 hag ?_ ?_ (.inl rfl)
      · rw [abs_of_neg (by linarith)]
        linarith
      · rw [abs_of_neg (by linarith), hbig]
        clear hbig
        linarith
    next h0 =>
      have hlt : piD < a := by
        by_contra h
        exact hn ⟨by linarith, by linarith⟩
      have := branch_double h1 hag (u := a + piD) (c := -piD) ?_ ?_ (.inr rfl)
      · simpa [sub_eq_add_neg] using this
      · rw [abs_of_pos (by linarith)]
        linarith
      · rw [abs_of_pos (by linarith), hbig]
        clear hbig
        linarith

/-- One branch of `wrapS`. -/
theorem branch_single {fl fl1 fs fs1 : ℝ → ℝ} (h1 : Rounds 53 fl1) (h2 : Rounds 24 fs1)
    (hag : ∀ x, Safe 53 (-1074) 1024 x → fl x = fl1 x) (has : ∀ x, Safe 24 (-149) 128 x → fs x = fs1 x)
    {u c : ℝ} (hu : 4 ≤ |u|) (hu2 : |u| ≤ 2 ^ (127 : ℤ)) (hc : c = piD ∨ c = -piD) :
    fs (fl (fmod (fs (fl u)) (fs (fl (2 * piD))) + c)) = fs1 (fl1 (fmod (fs1 (fl1 u)) (fs1 (fl1 (2 * piD))) + c)) := by
  have hb := piD_bounds
  norm_num at hb
  have hpi : fl1 (2 * piD) = 2 * piD := h1.self two_piD_double
  have hpp : |2 * piD| = 2 * piD := abs_of_pos (by linarith)
  have hs1 : Safe 53 (-1074) 1024 u :=
    safe_double (e := 2) (f := 127) (by norm_num; exact hu) hu2 (by norm_num) (by norm_num)
  have hs2 : Safe 53 (-1074) 1024 (2 * piD) :=
    safe_double (e := 2) (f := 3) (by rw [hpp]; norm_num; linarith) (by rw [hpp]; norm_num; linarith) (by norm_num)
      (by norm_num)
  have ht2 : Safe 24 (-149) 128 (2 * piD) :=
    safe_single (e := 2) (f := 3) (by rw [hpp]; norm_num; linarith) (by rw [hpp]; norm_num; linarith) (by norm_num)
      (by norm_num)
  have hu3 : 4 ≤ |fl1 u| := by
    have := h1.abs_ge (isFloat_pow (by norm_num) 2) (x := u) (by norm_num; exact hu)
    norm_num at this
    exact this
  have hu4 : |fl1 u| ≤ 2 ^ (127 : ℤ) := h1.abs_le (isFloat_pow (by norm_num) 127) hu2
  have ht1 : Safe 24 (-149) 128 (fl1 u) :=
    safe_single (e := 2) (f := 127) (by norm_num; exact hu3) hu4 (by norm_num) (by norm_num)
  have hm : ∃ k : ℤ, fs1 (fl1 u) = k * (2 : ℝ) ^ (-21 : ℤ) :=
    (h2 _).1.grid (E := 2) (h2.abs_ge (isFloat_pow (by norm_num) 2) (by norm_num; exact hu3))
  have hq : ∃ k : ℤ, fs1 (2 * piD) = k * (2 : ℝ) ^ (-21 : ℤ) :=
    (h2 _).1.grid (E := 2) (h2.abs_ge (isFloat_pow (by norm_num) 2) (by rw [hpp]; norm_num; linarith))
  have hq0 : 0 < fs1 (2 * piD) := by
    have := h2.ge (isFloat_pow (by norm_num) 2) (x := 2 * piD) (by norm_num; linarith)
    exact lt_of_lt_of_le (by positivity) this
  have hq1 : fs1 (2 * piD) ≤ 8 := by
    have := h2.le (isFloat_pow (by norm_num) 3) (x := 2 * piD) (by norm_num; linarith)
    norm_num at this
    exact this
  have hc' : ∃ k : ℤ, c = k * (2 : ℝ) ^ (-48 : ℤ) := by
    rcases hc with rfl | rfl
    · exact piD_multiple
    · exact multiple_neg piD_multiple
  have h4 : |c| = piD := by
    rcases hc with rfl | rfl
    · exact abs_of_pos (by linarith)
    · rw [abs_neg]
      exact abs_of_pos (by linarith)
  rw [hag u hs1, hag _ hs2, hpi, has _ ht1, has _ ht2]
  have hw : ∃ k : ℤ, fmod (fs1 (fl1 u)) (fs1 (2 * piD)) + c = k * (2 : ℝ) ^ (-48 : ℤ) :=
    multiple_add (multiple_of_le (by norm_num) (fmod_multiple hm hq)) hc'
  have hw2 : |fmod (fs1 (fl1 u)) (fs1 (2 * piD)) + c| ≤ 2 ^ (4 : ℤ) := by
    have h3 := fmod_small (s := fs1 (fl1 u)) hq0
    have h5 := abs_add_le (fmod (fs1 (fl1 u)) (fs1 (2 * piD))) c
    norm_num
    linarith
  rw [hag _ (safe_double_multiple hw hw2 (by norm_num) (by norm_num))]
  refine has _ ?_
  have hw3 : |fl1 (fmod (fs1 (fl1 u)) (fs1 (2 * piD)) + c)| ≤ 2 ^ (4 : ℤ) :=
    h1.abs_le (isFloat_pow (by norm_num) 4) hw2
  by_cases h0 : fmod (fs1 (fl1 u)) (fs1 (2 * piD)) + c = 0
  · rw [h0, h1.self (isFloat_zero 53)]
    exact safe_single_multiple (e := 0) (f := 0) ⟨0, by simp⟩ (by simp) (by norm_num) (by norm_num)
  · exact safe_single (e := -48) (f := 4) (h1.abs_ge (isFloat_pow (by norm_num) _) (multiple_ge hw h0)) hw3
      (by norm_num) (by norm_num)

theorem wrapS_agrees {fl fl1 fs fs1 : ℝ → ℝ} (h1 : Rounds 53 fl1) (h2 : Rounds 24 fs1)
    (hag : ∀ x, Safe 53 (-1074) 1024 x → fl x = fl1 x) (has : ∀ x, Safe 24 (-149) 128 x → fs x = fs1 x)
    {a : ℝ} (ha : |a| ≤ 2 ^ (126 : ℤ)) : wrapS fl fs a = wrapS fl1 fs1 a := by
  have hb := piD_bounds
  have hbig : (2 : ℝ) ^ (127 : ℤ) = 2 ^ (126 : ℤ) + 2 ^ (126 : ℤ) := by
    rw [show (127 : ℤ) = 126 + 1 by norm_num, zpow_add₀ (by norm_num)]; ring
  have h4 : (4 : ℝ) ≤ 2 ^ (126 : ℤ) := by
    have : (2 : ℝ) ^ (2 : ℤ) ≤ 2 ^ (126 : ℤ) := zpow_le_zpow_right₀ (by norm_num) (by norm_num)
    norm_num at this ⊢
  generalize (2 : ℝ) ^ (126 : ℤ) = B at ha hbig h4
  have hab := abs_le.1 ha
  norm_num at hb
  unfold wrapS
  split
  · rfl
  next hn =>
    split
    next h0 =>
      have hlt : a < -piD := by
        by_contra h
        exact hn ⟨by linarith, by linarith⟩
      refine branch_single h1 h2 hag has ?_ ?_ (.inl rfl)
      · rw [abs_of_neg (by linarith)]
        linarith
      · rw [abs_of_neg (by linarith), hbig]
        clear hbig
        linarith
    next h0 =>
      have hlt : piD < a := by
        by_contra h
        exact hn ⟨by linarith, by linarith⟩
      have := branch_single h1 h2 hag has (u := a + piD) (c := -piD) ?_ ?_ (.inr rfl)
      · simpa [sub_eq_add_neg] using this
      · rw [abs_of_pos (by linarith)]
        linarith
      · rw [abs_of_pos (by linarith), hbig]
        clear hbig
        linarith

end Ecl.AngleFloat
