import Verif.Model.DurationFloat
import Verif.Lemmas.PolynomialFloat
import Verif.Lemmas.Double

/-! # C153: durations of trajectory segments in floating point arithmetic -/
set_option autoImplicit false

namespace Ecl.Props
open Ecl Ecl.DurationFloat Ecl.Spec
open Ecl.PolyFloat (round_to round_factor isFloat_int)

namespace C153

/-- The time computed for a joint. -/
noncomputable def time (fl : ℝ → ℝ) (j : Joint) : ℝ := fl (|fl (j.goal - j.start)| / j.rate)

theorem time_near {fl : ℝ → ℝ} (hfl : Rounds 53 fl) {j : Joint} (hr : 0 < j.rate) :
    |time fl j * j.rate - abs (j.goal - j.start)| ≤ 3 / 2 ^ 53 * |j.goal - j.start| := by
  obtain ⟨d, hd, e⟩ := round_factor hfl (by norm_num) (j.goal - j.start)
  obtain ⟨d', hd', e'⟩ := round_factor hfl (by norm_num) (|fl (j.goal - j.start)| / j.rate)
  have h1 : |1 + d| = 1 + d := abs_of_nonneg (by have := (abs_le.1 hd).1; norm_num at this ⊢; linarith)
  have key : time fl j * j.rate - |j.goal - j.start| = |j.goal - j.start| * (d + d' + d * d') := by
    unfold time
    rw [e', e, abs_mul, h1]
    field_simp
    ring
  rw [key, abs_mul, abs_abs, mul_comm]
  refine mul_le_mul_of_nonneg_right ?_ (abs_nonneg _)
  have h2 : |d * d'| ≤ 1 / 2 ^ 53 := by
    rw [abs_mul]
    calc |d| * |d'| ≤ 1 / 2 ^ 53 * 1 := mul_le_mul hd (hd'.trans (by norm_num)) (abs_nonneg _) (by norm_num)
      _ = 1 / 2 ^ 53 := mul_one _
  calc |d + d' + d * d'| ≤ |d| + |d'| + |d * d'| := abs_add_three _ _ _
    _ ≤ 3 / 2 ^ 53 := by linarith

theorem time_zero {fl : ℝ → ℝ} (hfl : Rounds 53 fl) {j : Joint} (hr : 0 < j.rate) :
    0 ≤ time fl j ∧ (time fl j = 0 ↔ j.start = j.goal) := by
  refine ⟨hfl.ge (isFloat_zero 53) (by positivity), fun h => ?_, fun h => ?_⟩
  · have := time_near hfl hr
    rw [h, zero_mul, zero_sub, abs_neg, abs_abs] at this
    have h0 : |j.goal - j.start| = 0 := by
      have h0 := abs_nonneg (j.goal - j.start)
      have h1 : (3 : ℝ) / 2 ^ 53 * |j.goal - j.start| ≤ 1 / 2 * |j.goal - j.start| :=
        mul_le_mul_of_nonneg_right (by norm_num) h0
      linarith
    have := abs_eq_zero.1 h0
    linarith
  · unfold time
    rw [h, sub_self, hfl.self (isFloat_zero 53), abs_zero, zero_div, hfl.self (isFloat_zero 53)]

theorem longest_spec {fl : ℝ → ℝ} (js : List Joint) (hr : ∀ j ∈ js, 0 < j.rate) (m : ℝ) :
    m ≤ longest fl m js ∧ (∀ j ∈ js, time fl j ≤ longest fl m js) ∧
      (longest fl m js = m ∨ ∃ j ∈ js, longest fl m js = time fl j) := by
  induction js generalizing m with
  | nil => simp [longest]
  | cons j js ih =>
    have hj : j.rate ≠ 0 := (hr j List.mem_cons_self).ne'
    simp only [longest, hj, ne_eq, not_false_eq_true, if_true]
    obtain ⟨h1, h2, h3⟩ := ih (fun k hk => hr k (List.mem_cons_of_mem _ hk))
      (if fl (|fl (j.goal - j.start)| / j.rate) > m then fl (|fl (j.goal - j.start)| / j.rate) else m)
    have h4 : m ≤ (if fl (|fl (j.goal - j.start)| / j.rate) > m then fl (|fl (j.goal - j.start)| / j.rate) else m) ∧
        time fl j ≤ (if fl (|fl (j.goal - j.start)| / j.rate) > m then fl (|fl (j.goal - j.start)| / j.rate) else m) := by
      split
      next h => exact ⟨h.le, le_rfl⟩
      next h => exact ⟨le_rfl, not_lt.1 h⟩
    refine ⟨h4.1.trans h1, fun k hk => ?_, ?_⟩
    · rcases List.mem_cons.1 hk with rfl | hk
      · exact h4.2.trans h1
      · exact h2 k hk
    · rcases h3 with h3 | ⟨k, hk, h3⟩
      · rw [h3]
        split
        · exact .inr ⟨j, List.mem_cons_self, rfl⟩
        · exact .inl rfl
      · exact .inr ⟨k, List.mem_cons_of_mem _ hk, h3⟩

/-- One segment. -/
theorem segment_spec {fl : ℝ → ℝ} (hfl : Rounds 53 fl) (d : ℝ) (js : List Joint) (hr : ∀ j ∈ js, 0 < j.rate) :
    d ≤ segment fl d js ∧ 0 ≤ segment fl d js ∧ (∀ j ∈ js, time fl j ≤ segment fl d js) ∧
      (segment fl d js = d ∨ segment fl d js = 0 ∨ ∃ j ∈ js, segment fl d js = time fl j) ∧
      (segment fl d js = 0 ↔ d ≤ 0 ∧ ∀ j ∈ js, j.start = j.goal) := by
  obtain ⟨h1, h2, h3⟩ := longest_spec (fl := fl) js hr 0
  have a : d ≤ segment fl d js ∧ longest fl 0 js ≤ segment fl d js ∧
      (segment fl d js = d ∨ segment fl d js = longest fl 0 js) := by
    unfold segment
    split
    next h => exact ⟨h.le, le_rfl, .inr rfl⟩
    next h => exact ⟨le_rfl, not_lt.1 h, .inl rfl⟩
  refine ⟨a.1, h1.trans a.2.1, fun j hj => (h2 j hj).trans a.2.1, ?_, fun h => ?_, fun h => ?_⟩
  · rcases a.2.2 with e | e
    · exact .inl e
    · rcases h3 with h3 | ⟨j, hj, h3⟩
      · exact .inr (.inl (e.trans h3))
      · exact .inr (.inr ⟨j, hj, e.trans h3⟩)
  · refine ⟨h ▸ a.1, fun j hj => ?_⟩
    have hz := time_zero hfl (hr j hj)
    exact hz.2.1 (le_antisymm ((h2 j hj).trans (h ▸ a.2.1)) hz.1)
  · have hl : longest fl 0 js = 0 := by
      rcases h3 with h3 | ⟨j, hj, h3⟩
      · exact h3
      · rw [h3]; exact (time_zero hfl (hr j hj)).2.2 (h.2 j hj)
    unfold segment
    rw [hl]
    split
    · rfl
    next h' => exact le_antisymm h.1 (not_lt.1 h')

theorem initialise_at {fl : ℝ → ℝ} (segs : List (ℝ × List Joint)) (h : (initialise fl segs).2 = true) (i : ℕ) (d : ℝ)
    (js : List Joint) (hi : segs[i]? = some (d, js)) :
    (initialise fl segs).1[i]? = some (segment fl d js) ∧ segment fl d js ≠ 0 := by
  induction segs generalizing i with
  | nil => simp at hi
  | cons s segs ih =>
    obtain ⟨d', js'⟩ := s
    simp only [initialise] at h ⊢
    split at h
    · cases h
    next hne =>
      rw [if_neg hne]
      cases i with
      | zero =>
        simp only [List.getElem?_cons_zero, Option.some.injEq, Prod.mk.injEq] at hi
        obtain ⟨rfl, rfl⟩ := hi
        exact ⟨rfl, hne⟩
      | succ i =>
        simp only [List.getElem?_cons_succ] at hi ⊢
        exact ih h i hi

theorem initialise_bad {fl : ℝ → ℝ} (segs : List (ℝ × List Joint)) :
    (initialise fl segs).2 = false ↔ ∃ s ∈ segs, segment fl s.1 s.2 = 0 := by
  induction segs with
  | nil => simp [initialise]
  | cons s segs ih =>
    obtain ⟨d, js⟩ := s
    simp only [initialise]
    split
    next h => simp [h]
    next h => simp [h, ih]

theorem total_step {fl : ℝ → ℝ} (hfl : Rounds 53 fl) (ds : List ℝ) (hd : ∀ d ∈ ds, 0 ≤ d ∧ IsFloat 53 d) (s : ℝ)
    (hs : 0 ≤ s) (hsf : IsFloat 53 s) :
    s ≤ ds.foldl (fun s d => fl (s + d)) s ∧ (∀ d ∈ ds, d ≤ ds.foldl (fun s d => fl (s + d)) s) ∧
    (s + ds.sum) * (1 - 1 / 2 ^ 53) ^ ds.length ≤ ds.foldl (fun s d => fl (s + d)) s ∧
    ds.foldl (fun s d => fl (s + d)) s ≤ (s + ds.sum) * (1 + 1 / 2 ^ 53) ^ ds.length := by
  induction ds generalizing s with
  | nil => simp
  | cons d ds ih =>
    obtain ⟨h1, h2⟩ := hd d List.mem_cons_self
    have hge1 : s ≤ fl (s + d) := hfl.ge hsf (by linarith)
    have hge2 : d ≤ fl (s + d) := hfl.ge h2 (by linarith)
    obtain ⟨a, b, c, e⟩ := ih (fun x hx => hd x (List.mem_cons_of_mem _ hx)) (fl (s + d)) (hs.trans hge1) (hfl _).1
    have hsum : 0 ≤ ds.sum := List.sum_nonneg fun x hx => (hd x (List.mem_cons_of_mem _ hx)).1
    obtain ⟨δ, hδ, hf⟩ := round_factor hfl (by norm_num) (s + d)
    have hδ' := abs_le.1 hδ
    simp only [List.foldl_cons, List.sum_cons, List.length_cons]
    refine ⟨hge1.trans a, ?_, ?_, ?_⟩
    · intro x hx
      rcases List.mem_cons.1 hx with rfl | hx
      · exact hge2.trans a
      · exact b x hx
    · refine le_trans ?_ c
      rw [pow_succ' (1 - 1 / 2 ^ 53 : ℝ) ds.length, ← mul_assoc]
      refine mul_le_mul_of_nonneg_right ?_ (by norm_num)
      have : (s + d) * (1 - 1 / 2 ^ 53) ≤ fl (s + d) := by
        rw [hf]; exact mul_le_mul_of_nonneg_left (by linarith) (by linarith)
      have h3 : ds.sum * (1 - 1 / 2 ^ 53) ≤ ds.sum * 1 := mul_le_mul_of_nonneg_left (by norm_num) hsum
      calc (s + (d + ds.sum)) * (1 - 1 / 2 ^ 53) = (s + d) * (1 - 1 / 2 ^ 53) + ds.sum * (1 - 1 / 2 ^ 53) := by ring
        _ ≤ fl (s + d) + ds.sum := by linarith
    · refine le_trans e ?_
      rw [pow_succ' (1 + 1 / 2 ^ 53 : ℝ) ds.length, ← mul_assoc]
      refine mul_le_mul_of_nonneg_right ?_ (by norm_num)
      have : fl (s + d) ≤ (s + d) * (1 + 1 / 2 ^ 53) := by
        rw [hf]; exact mul_le_mul_of_nonneg_left (by linarith) (by linarith)
      have h3 : ds.sum * 1 ≤ ds.sum * (1 + 1 / 2 ^ 53) := mul_le_mul_of_nonneg_left (by norm_num) hsum
      calc fl (s + d) + ds.sum ≤ (s + d) * (1 + 1 / 2 ^ 53) + ds.sum * (1 + 1 / 2 ^ 53) := by linarith
        _ = (s + (d + ds.sum)) * (1 + 1 / 2 ^ 53) := by ring

end C153

/-- With positive rates, after success every segment takes a positive time, not less than configured, in which every joint
reaches its goal with its nominal rate raised by at most four roundings; and a time that was not configured is what some
joint needs, up to three roundings. -/
theorem C153_enough_partial {fl : ℝ → ℝ} (hfl : Rounds 53 fl) (segs : List (ℝ × List Joint))
    (hr : ∀ s ∈ segs, ∀ j ∈ s.2, 0 < j.rate) (h : (initialise fl segs).2 = true) (i : ℕ) (d : ℝ) (js : List Joint)
    (hi : segs[i]? = some (d, js)) :
    ∃ t, (initialise fl segs).1[i]? = some t ∧ 0 < t ∧ d ≤ t ∧
      (∀ j ∈ js, |j.goal - j.start| ≤ j.rate * (1 + 4 / 2 ^ 53) * t) ∧
      (t = d ∨ ∃ j ∈ js, |t * j.rate - abs (j.goal - j.start)| ≤ 3 / 2 ^ 53 * |j.goal - j.start|) := by
  obtain ⟨h1, h2⟩ := C153.initialise_at segs h i d js hi
  have hr' := hr _ (List.mem_of_getElem? hi)
  obtain ⟨a, b, c, e, -⟩ := C153.segment_spec hfl d js hr'
  refine ⟨_, h1, lt_of_le_of_ne b (Ne.symm h2), a, fun j hj => ?_, ?_⟩
  · have hj := hr' j hj
    have h3 := (abs_le.1 (C153.time_near hfl hj)).1
    have h4 : C153.time fl j * j.rate ≤ segment fl d js * j.rate := mul_le_mul_of_nonneg_right (c j ‹_›) hj.le
    have h5 : |j.goal - j.start| * (1 - 3 / 2 ^ 53) ≤ segment fl d js * j.rate := by
      calc |j.goal - j.start| * (1 - 3 / 2 ^ 53) = |j.goal - j.start| - 3 / 2 ^ 53 * |j.goal - j.start| := by ring
        _ ≤ C153.time fl j * j.rate := by linarith
        _ ≤ _ := h4
    calc |j.goal - j.start| ≤ |j.goal - j.start| * ((1 - 3 / 2 ^ 53) * (1 + 4 / 2 ^ 53)) :=
          le_mul_of_one_le_right (abs_nonneg _) (by norm_num)
      _ = |j.goal - j.start| * (1 - 3 / 2 ^ 53) * (1 + 4 / 2 ^ 53) := by ring
      _ ≤ segment fl d js * j.rate * (1 + 4 / 2 ^ 53) := mul_le_mul_of_nonneg_right h5 (by norm_num)
      _ = j.rate * (1 + 4 / 2 ^ 53) * segment fl d js := by ring
  · rcases e with e | e | ⟨j, hj, e⟩
    · exact .inl e
    · exact absurd e h2
    · exact .inr ⟨j, hj, by rw [e]; exact C153.time_near hfl (hr' j hj)⟩

/-- No duration is made shorter, whether the call succeeds or not and whatever the rates are, and after failure those behind
the segment at fault are as they were. -/
theorem C153_kept {fl : ℝ → ℝ} (segs : List (ℝ × List Joint)) : (initialise fl segs).1.length = segs.length ∧
    (∀ (i : ℕ) (d : ℝ) (js : List Joint), segs[i]? = some (d, js) → ∃ t, (initialise fl segs).1[i]? = some t ∧ d ≤ t) ∧
    ((initialise fl segs).2 = false → ∃ k : ℕ, (initialise fl segs).1[k]? = some 0 ∧
      ∀ i : ℕ, k < i → (initialise fl segs).1[i]? = segs[i]?.map Prod.fst) := by
  induction segs with
  | nil => simp [initialise]
  | cons s segs ih =>
    obtain ⟨d, js⟩ := s
    have hle : d ≤ segment fl d js := by
      unfold segment
      split
      next h => exact h.le
      next h => exact le_rfl
    obtain ⟨h1, h2, h3⟩ := ih
    simp only [initialise]
    split
    next h0 =>
      refine ⟨by simp, fun i d' js' hi => ?_, fun _ => ⟨0, by simp [h0], fun i hi => ?_⟩⟩
      · cases i with
        | zero => cases hi; exact ⟨_, rfl, hle⟩
        | succ i =>
          simp only [List.getElem?_cons_succ] at hi ⊢
          exact ⟨d', by simp [hi], le_rfl⟩
      · obtain ⟨i, rfl⟩ : ∃ n, i = n + 1 := ⟨i - 1, by omega⟩
        simp
    next h0 =>
      refine ⟨by simp [h1], fun i d' js' hi => ?_, fun hf => ?_⟩
      · cases i with
        | zero => cases hi; exact ⟨_, rfl, hle⟩
        | succ i =>
          simp only [List.getElem?_cons_succ] at hi ⊢
          exact h2 i d' js' hi
      · obtain ⟨k, hk, hk'⟩ := h3 hf
        refine ⟨k + 1, by simpa using hk, fun i hi => ?_⟩
        obtain ⟨i, rfl⟩ : ∃ n, i = n + 1 := ⟨i - 1, by omega⟩
        simpa using hk' i (by omega)

/-- Failure is reported exactly if some segment has no positive duration configured and no joint moves on it: rounding makes
no difference. -/
theorem C153_refuses {fl : ℝ → ℝ} (hfl : Rounds 53 fl) (segs : List (ℝ × List Joint))
    (hr : ∀ s ∈ segs, ∀ j ∈ s.2, 0 < j.rate) :
    (initialise fl segs).2 = false ↔ ∃ s ∈ segs, s.1 ≤ 0 ∧ ∀ j ∈ s.2, j.start = j.goal := by
  rw [C153.initialise_bad]
  constructor
  · rintro ⟨s, hs, h⟩
    exact ⟨s, hs, (C153.segment_spec hfl s.1 s.2 (hr s hs)).2.2.2.2.1 h⟩
  · rintro ⟨s, hs, h⟩
    exact ⟨s, hs, (C153.segment_spec hfl s.1 s.2 (hr s hs)).2.2.2.2.2 h⟩

/-- The exact claim fails: a joint that moves by 1 at the rate 3 gets less than a third of a second, so that it is faster
than its nominal rate. -/
theorem C153_fails_exact {fl : ℝ → ℝ} (hfl : Rounds 53 fl) : ∃ t, initialise fl [(0, [⟨0, 1, 3⟩])] = ([t], true) ∧
    0 < t ∧ 3 * t < 1 := by
  have i1 : fl (1 - 0) = 1 := by
    have := hfl.self (isFloat_int (p := 53) (by norm_num) (z := 1) (by norm_num))
    norm_num at this ⊢
    exact this
  have ht : fl (1 / 3) = 6004799503160661 / 2 ^ 54 := by
    have := round_to hfl (by norm_num) (x := 1 / 3) 6004799503160661 (-54) (by norm_num) (by norm_num)
      (by norm_num [abs_lt])
    norm_num at this ⊢
    linarith
  refine ⟨6004799503160661 / 2 ^ 54, ?_, by norm_num, by norm_num⟩
  simp only [initialise, segment, longest, i1, abs_one, ht]
  norm_num

/-- The duration of the trajectory: not shorter than any segment, and off from the sum by at most one rounding for each
segment. -/
theorem C153_total {fl : ℝ → ℝ} (hfl : Rounds 53 fl) (ds : List ℝ) (hd : ∀ d ∈ ds, 0 ≤ d ∧ IsFloat 53 d) :
    (∀ d ∈ ds, d ≤ total fl ds) ∧ ds.sum * (1 - 1 / 2 ^ 53) ^ ds.length ≤ total fl ds ∧
      total fl ds ≤ ds.sum * (1 + 1 / 2 ^ 53) ^ ds.length := by
  obtain ⟨-, b, c, e⟩ := C153.total_step hfl ds hd 0 le_rfl (isFloat_zero 53)
  rw [zero_add] at c e
  exact ⟨b, c, e⟩

/-! ## Examples -/

/-- Some rounding exists. -/
example : ∃ fl : ℝ → ℝ, Rounds 53 fl := ⟨_, rounds_double.2 round53_nearest⟩

/-- Two segments and two joints: nothing configured for the first, more than needed for the second. -/
example {fl : ℝ → ℝ} (hfl : Rounds 53 fl) :
    (initialise fl [(0, [⟨0, 1, 3⟩, ⟨0, 0, 1⟩]), (10, [⟨1, 1, 3⟩, ⟨0, 2, 7⟩])]).2 = true := by
  rw [← Bool.not_eq_false, C153_refuses hfl]
  · norm_num
  · norm_num

example {fl : ℝ → ℝ} (hfl : Rounds 53 fl) : (initialise fl [(0, [⟨5, 5, 3⟩])]).2 = false := by
  rw [C153_refuses hfl]
  · norm_num
  · norm_num

end Ecl.Props
