import Verif.Model.StatisticsFloat
import Verif.Lemmas.Statistics
import Verif.Lemmas.Rounding

/-! # Welford's recurrence with rounding -/
set_option autoImplicit false
set_option linter.unusedSimpArgs false

namespace Ecl.CumStatFloat
open Ecl.Spec
open Ecl.CumStat (average_append deviation_append deviation_eq)

theorem isFloat_one {p : ℕ} (hp : 1 ≤ p) : IsFloat p 1 := by
  have := isFloat_nat hp (n := 1) Nat.one_le_two_pow
  simpa using this

theorem isFloat_two {p : ℕ} (hp : 1 ≤ p) : IsFloat p 2 := by
  have := isFloat_nat hp (n := 2) (by calc 2 = 2 ^ 1 := rfl
                                        _ ≤ 2 ^ p := Nat.pow_le_pow_right (by norm_num) hp)
  simpa using this

theorem unit_le {p : ℕ} (hp : 2 ≤ p) : (1 : ℝ) / 2 ^ p ≤ 1 / 4 := by
  have : (2 : ℝ) ^ 2 ≤ 2 ^ p := pow_le_pow_right₀ (by norm_num) hp
  exact one_div_le_one_div_of_le (by norm_num) (by norm_num at this ⊢; linarith)

section
variable {p : ℕ} {fl : ℝ → ℝ} (hfl : Rounds p fl) (hp : 2 ≤ p)
include hfl hp

/-- Going up: the correction stays within the distance. -/
theorem up {o x n : ℝ} (hox : o ≤ x) (hn : 2 ≤ n) :
    0 ≤ fl (x - o) ∧ 0 ≤ fl (fl (x - o) / n) ∧ fl (fl (x - o) / n) ≤ x - o := by
  have h0 := isFloat_zero p
  have hd : 0 ≤ fl (x - o) := hfl.ge h0 (by linarith)
  have hq : 0 ≤ fl (fl (x - o) / n) := hfl.ge h0 (by positivity)
  refine ⟨hd, hq, ?_⟩
  have r1 := hfl.relative (by omega) (x - o)
  have r2 := hfl.relative (by omega) (fl (x - o) / n)
  have hu := unit_le hp
  rw [abs_of_nonneg (by linarith : 0 ≤ x - o)] at r1
  rw [abs_of_nonneg (by positivity : 0 ≤ fl (x - o) / n)] at r2
  have h1 := (abs_le.1 r1).2
  have h2 := (abs_le.1 r2).2
  have h3 : fl (x - o) / n ≤ fl (x - o) / 2 := by gcongr
  have h4 : (x - o) / 2 ^ p ≤ (x - o) * (1 / 4) := by
    rw [div_eq_mul_one_div]
    exact mul_le_mul_of_nonneg_left hu (by linarith)
  have h5 : fl (x - o) / n / 2 ^ p ≤ fl (x - o) / n * (1 / 4) := by
    rw [div_eq_mul_one_div (fl (x - o) / n)]
    exact mul_le_mul_of_nonneg_left hu (by positivity)
  linarith

/-- The sum before it is rounded is between the old mean and the new value. -/
theorem sum_between {o x n : ℝ} (hn : 2 ≤ n) :
    min o x ≤ o + fl (fl (x - o) / n) ∧ o + fl (fl (x - o) / n) ≤ max o x := by
  rcases le_total o x with h | h
  · obtain ⟨_, h2, h3⟩ := up hfl hp h hn
    rw [min_eq_left h, max_eq_right h]
    exact ⟨by linarith, by linarith⟩
  · obtain ⟨_, h2, h3⟩ := up hfl.flip hp (by linarith : -o ≤ -x) hn
    rw [min_eq_right h, max_eq_left h]
    have e : -(-x - -o) = x - o := by ring
    simp only [e, neg_div, neg_neg] at h2 h3
    exact ⟨by linarith, by linarith⟩

theorem mean_between {o x n : ℝ} (ho : IsFloat p o) (hx : IsFloat p x) (hn : 2 ≤ n) :
    min o x ≤ fl (o + fl (fl (x - o) / n)) ∧ fl (o + fl (fl (x - o) / n)) ≤ max o x := by
  obtain ⟨h1, h2⟩ := sum_between hfl hp (o := o) (x := x) hn
  refine ⟨hfl.ge ?_ h1, hfl.le ?_ h2⟩
  · rcases min_choice o x with h | h <;> rw [h] <;> assumption
  · rcases max_choice o x with h | h <;> rw [h] <;> assumption

/-- The term added to the sum of squares is not negative. -/
theorem term_nonneg {o x n : ℝ} (ho : IsFloat p o) (hx : IsFloat p x) (hn : 2 ≤ n) :
    0 ≤ fl (x - o) * fl (x - fl (o + fl (fl (x - o) / n))) := by
  obtain ⟨h1, h2⟩ := mean_between hfl hp ho hx hn
  have h0 := isFloat_zero p
  rcases le_total o x with h | h
  · rw [max_eq_right h] at h2
    exact mul_nonneg (hfl.ge h0 (by linarith)) (hfl.ge h0 (by linarith))
  · rw [min_eq_right h] at h1
    exact mul_nonneg_of_nonpos_of_nonpos (hfl.le h0 (by linarith)) (hfl.le h0 (by linarith))

end

/-- Invariant: where the mean is and that the variance is not negative. -/
structure Inside (p : ℕ) (lo hi : ℝ) (s : State) (l : List ℝ) : Prop where
  none : l = [] → s.n = 0
  one : l.length = 1 → s.n = 1
  many : 1 < l.length → 2 ≤ s.n ∧ s.newVariance = s.oldVariance
  data : l ≠ [] → s.newMean = s.oldMean ∧ IsFloat p s.oldMean ∧ lo ≤ s.oldMean ∧ s.oldMean ≤ hi ∧
    0 ≤ s.oldVariance ∧ (lo = hi → s.oldVariance = 0)

section
variable {p : ℕ} {fl : ℝ → ℝ} (hfl : Rounds p fl) (hp : 2 ≤ p)
include hfl hp

theorem Inside.push {lo hi x : ℝ} {s : State} {l : List ℝ} (h : Inside p lo hi s l) (hx : IsFloat p x)
    (h1 : lo ≤ x) (h2 : x ≤ hi) : Inside p lo hi (pushBack fl s x) (l ++ [x]) := by
  by_cases hl : l = []
  · subst hl
    have hn := h.none rfl
    have e : fl (s.n + 1) = 1 := by rw [hn, zero_add, hfl.self (isFloat_one (by omega))]
    have es : pushBack fl s x = { s with n := 1, oldMean := x, newMean := x, oldVariance := 0 } := by
      simp only [pushBack, e, if_true]
    rw [es]
    exact ⟨by simp, by simp, by simp, fun _ => ⟨rfl, hx, h1, h2, le_rfl, fun _ => rfl⟩⟩
  · have hpos := List.length_pos_iff.2 hl
    have hn1 : 1 ≤ s.n := by
      by_cases h1 : l.length = 1
      · rw [h.one h1]
      · linarith [(h.many (by omega)).1]
    have hn2 : 2 ≤ fl (s.n + 1) := hfl.ge (isFloat_two (by omega)) (by linarith)
    obtain ⟨_, d2, d3, d4, d5, d6⟩ := h.data hl
    have hm := mean_between hfl hp d2 hx hn2
    have ht := term_nonneg hfl hp d2 hx hn2
    have h0 := isFloat_zero p
    have hlen : 1 < (l ++ [x]).length := by simp; omega
    have es : pushBack fl s x = ⟨fl (s.n + 1), fl (s.oldMean + fl (fl (x - s.oldMean) / fl (s.n + 1))),
        fl (s.oldVariance + fl (fl (x - s.oldMean) *
          fl (x - fl (s.oldMean + fl (fl (x - s.oldMean) / fl (s.n + 1)))))),
        fl (s.oldMean + fl (fl (x - s.oldMean) / fl (s.n + 1))),
        fl (s.oldVariance + fl (fl (x - s.oldMean) *
          fl (x - fl (s.oldMean + fl (fl (x - s.oldMean) / fl (s.n + 1))))))⟩ := by
      simp only [pushBack]
      rw [if_neg (by linarith)]
    rw [es]
    refine ⟨fun e => by simp at e, fun e => by omega, fun _ => ⟨hn2, rfl⟩, fun _ => ⟨rfl, (hfl _).1, ?_, ?_, ?_, ?_⟩⟩
    · exact le_trans (le_min d3 h1) hm.1
    · exact le_trans hm.2 (max_le d4 h2)
    · exact hfl.ge h0 (add_nonneg d5 (hfl.ge h0 ht))
    · intro e
      subst e
      have e1 : s.oldMean = lo := le_antisymm d4 d3
      have e2 : x = lo := le_antisymm h2 h1
      dsimp only
      rw [e1, e2, d6 rfl, sub_self, hfl.self h0, zero_mul, hfl.self h0, add_zero, hfl.self h0]

theorem inside_pushes {lo hi : ℝ} (g : State) (l : List ℝ) (h : ∀ x ∈ l, IsFloat p x ∧ lo ≤ x ∧ x ≤ hi) :
    Inside p lo hi (l.foldl (pushBack fl) (clear g)) l := by
  induction l using List.reverseRecOn with
  | nil => exact ⟨fun _ => rfl, by simp, by simp, fun e => absurd rfl e⟩
  | append_singleton l x ih =>
    rw [List.foldl_append, List.foldl_cons, List.foldl_nil]
    obtain ⟨a, b, c⟩ := h x (by simp)
    exact (ih fun y hy => h y (by simp [hy])).push hfl hp a b c

end

/-! ### Accuracy -/

/-- Invariant: how near the members are to the exact values.  `M` bounds the data. -/
structure Close (p : ℕ) (M : ℝ) (s : State) (l : List ℝ) : Prop where
  count : s.n = l.length
  small : l ≠ [] → |s.oldMean| ≤ M ∧ IsFloat p s.oldMean
  mean : l ≠ [] → |s.oldMean - average l| ≤ M * (1 / 2 ^ p) * ((l.length + 11) / 2)
  square : l ≠ [] → |s.oldVariance - deviation l| ≤ M ^ 2 * (1 / 2 ^ p) * (3 * l.length ^ 2 + 40 * l.length)
  same : l ≠ [] → s.newMean = s.oldMean
  same' : 1 < l.length → s.newVariance = s.oldVariance

theorem average_le {M : ℝ} (l : List ℝ) (h : ∀ x ∈ l, |x| ≤ M) (hM : 0 ≤ M) : |average l| ≤ M := by
  unfold average
  by_cases hl : l = []
  · subst hl; simpa using hM
  have hn : (0 : ℝ) < l.length := by exact_mod_cast List.length_pos_iff.2 hl
  rw [abs_div, abs_of_pos hn, div_le_iff₀ hn]
  clear hl hn
  induction l with
  | nil => simp
  | cons a t ih =>
    have h1 := ih fun x hx => h x (List.mem_cons_of_mem _ hx)
    have h2 := h a List.mem_cons_self
    simp only [List.sum_cons, List.length_cons]
    push_cast
    refine (abs_add_le _ _).trans ?_
    linarith

theorem deviation_bound {M : ℝ} (l : List ℝ) (h : ∀ x ∈ l, |x| ≤ M) :
    0 ≤ deviation l ∧ deviation l ≤ M ^ 2 * l.length := by
  constructor
  · exact List.sum_nonneg (by simp; intros; positivity)
  · by_cases hl : l = []
    · subst hl; simp [deviation]
    rw [deviation_eq l hl]
    have h1 : (l.map fun x => x ^ 2).sum ≤ M ^ 2 * l.length := by
      clear hl
      induction l with
      | nil => simp
      | cons a t ih =>
        have h1 := ih fun x hx => h x (List.mem_cons_of_mem _ hx)
        have h2 := sq_le_sq' (by linarith [(abs_le.1 (h a List.mem_cons_self)).1]) (abs_le.1 (h a List.mem_cons_self)).2
        simp only [List.map_cons, List.sum_cons, List.length_cons]
        push_cast
        linarith
    have h2 : 0 ≤ (l.length : ℝ) * average l ^ 2 := by positivity
    linarith

section
variable {p : ℕ} {fl : ℝ → ℝ} (hfl : Rounds p fl) (hp : 11 ≤ p)
include hfl hp

/-- One step of the mean. -/
theorem mean_step {M o x n a : ℝ} {e : ℝ} (hn : 2 ≤ n) (ho : |o| ≤ M) (hx : |x| ≤ M) (he : |o - a| ≤ e) :
    |fl (o + fl (fl (x - o) / n)) - (a + (x - a) / n)| ≤
      e * (1 - 1 / n) + 5 * M * (1 / 2 ^ p) / n + M * (1 / 2 ^ p) := by
  have hu := unit_le (p := p) (by omega)
  have hu0 : (0 : ℝ) < 1 / 2 ^ p := by positivity
  generalize hud : (1 : ℝ) / 2 ^ p = u at *
  have hn0 : 0 < n := by linarith
  have hM : 0 ≤ M := (abs_nonneg _).trans ho
  have rel : ∀ y, |fl y - y| ≤ |y| * u := fun y => by
    have := hfl.relative (by omega) y
    rwa [div_eq_mul_one_div, hud] at this
  have b := sum_between hfl (by omega) (o := o) (x := x) hn
  have r1 := rel (x - o)
  have r2 := rel (fl (x - o) / n)
  have r3 := rel (o + fl (fl (x - o) / n))
  have hxo : |x - o| ≤ 2 * M := (abs_sub _ _).trans (by linarith)
  have hsum : |o + fl (fl (x - o) / n)| ≤ M := by
    have h1 := abs_le.1 ho
    have h2 := abs_le.1 hx
    exact abs_le.2 ⟨le_trans (le_min h1.1 h2.1) b.1, le_trans b.2 (max_le h1.2 h2.2)⟩
  have e1 : fl (o + fl (fl (x - o) / n)) - (a + (x - a) / n) =
      (fl (o + fl (fl (x - o) / n)) - (o + fl (fl (x - o) / n))) + (fl (fl (x - o) / n) - fl (x - o) / n) +
      (fl (x - o) - (x - o)) / n + (o - a) * (1 - 1 / n) := by
    field_simp
    ring
  have hd : |fl (x - o)| ≤ 2 * M * (1 + u) := by
    have := abs_add_le (fl (x - o) - (x - o)) (x - o)
    rw [sub_add_cancel] at this
    nlinarith
  have t1 : |fl (o + fl (fl (x - o) / n)) - (o + fl (fl (x - o) / n))| ≤ M * u :=
    r3.trans (mul_le_mul_of_nonneg_right hsum hu0.le)
  have t2 : |fl (fl (x - o) / n) - fl (x - o) / n| ≤ 2 * M * (1 + u) * u / n := by
    refine r2.trans ?_
    rw [abs_div, abs_of_pos hn0, div_mul_eq_mul_div]
    gcongr
  have t3 : |(fl (x - o) - (x - o)) / n| ≤ 2 * M * u / n := by
    rw [abs_div, abs_of_pos hn0]
    gcongr
    exact r1.trans (mul_le_mul_of_nonneg_right hxo hu0.le)
  have h1n : 0 ≤ 1 - 1 / n := by
    rw [sub_nonneg, div_le_one hn0]
    linarith
  have t4 : |(o - a) * (1 - 1 / n)| ≤ e * (1 - 1 / n) := by
    rw [abs_mul, abs_of_nonneg h1n]
    exact mul_le_mul_of_nonneg_right he h1n
  rw [e1]
  refine ((abs_add_le _ _).trans (add_le_add ((abs_add_le _ _).trans
    (add_le_add ((abs_add_le _ _).trans (add_le_add t1 t2)) t3)) t4)).trans ?_
  have t5 : 2 * M * (1 + u) * u / n + 2 * M * u / n ≤ 5 * M * u / n := by
    rw [← add_div]
    gcongr
    have : 0 ≤ M * u := by positivity
    nlinarith
  linarith

/-- One step of the sum of squares. -/
theorem square_step {M o x n a a' m S T : ℝ} (hn : 2 ≤ n) (hs : 100 * n * (1 / 2 ^ p) ≤ 1) (ho : |o| ≤ M)
    (hx : |x| ≤ M) (hm : |m| ≤ M) (ha' : |a'| ≤ M)
    (hoa : |o - a| ≤ M * (1 / 2 ^ p) * ((n + 10) / 2)) (hma : |m - a'| ≤ M * (1 / 2 ^ p) * ((n + 11) / 2))
    (hT : 0 ≤ T) (hT' : T ≤ M ^ 2 * n)
    (hS : |S - T| ≤ M ^ 2 * (1 / 2 ^ p) * (3 * (n - 1) ^ 2 + 40 * (n - 1))) :
    |fl (S + fl (fl (x - o) * fl (x - m))) - (T + (x - a) * (x - a'))| ≤
      M ^ 2 * (1 / 2 ^ p) * (3 * n ^ 2 + 40 * n) := by
  have hu : (1 : ℝ) / 2 ^ p ≤ 1 / 2048 := by
    have : (2 : ℝ) ^ 11 ≤ 2 ^ p := pow_le_pow_right₀ (by norm_num) hp
    exact one_div_le_one_div_of_le (by norm_num) (by norm_num at this ⊢; linarith)
  have hu0 : (0 : ℝ) < 1 / 2 ^ p := by positivity
  have rel' : ∀ y, |fl y - y| ≤ |y| * (1 / 2 ^ p) := fun y => by
    have := hfl.relative (by omega) y
    rwa [div_eq_mul_one_div] at this
  generalize hud : (1 : ℝ) / 2 ^ p = u at *
  have hM : 0 ≤ M := (abs_nonneg _).trans ho
  have hw : 0 ≤ M ^ 2 * u := by positivity
  have hMu : 0 ≤ M * u := by positivity
  have two : ∀ y, |y| ≤ M → |x - y| ≤ 2 * M := fun y hy => (abs_sub _ _).trans (by linarith)
  -- the factors
  have hA : |fl (x - o)| ≤ 2.01 * M := by
    have h1 := abs_add_le (fl (x - o) - (x - o)) (x - o)
    rw [sub_add_cancel] at h1
    have h2 := rel' (x - o)
    have h3 := two o ho
    have h4 : |x - o| * u ≤ 2 * M * (1 / 2048) := mul_le_mul h3 hu hu0.le (by linarith)
    norm_num at h4 ⊢
    linarith
  have hB : |fl (x - m)| ≤ 2.01 * M := by
    have h1 := abs_add_le (fl (x - m) - (x - m)) (x - m)
    rw [sub_add_cancel] at h1
    have h2 := rel' (x - m)
    have h3 := two m hm
    have h4 : |x - m| * u ≤ 2 * M * (1 / 2048) := mul_le_mul h3 hu hu0.le (by linarith)
    norm_num at h4 ⊢
    linarith
  have hAa : |fl (x - o) - (x - a)| ≤ M * u * ((n + 14) / 2) := by
    have e : fl (x - o) - (x - a) = (fl (x - o) - (x - o)) - (o - a) := by ring
    rw [e]
    have h2 := (rel' (x - o)).trans (mul_le_mul_of_nonneg_right (two o ho) hu0.le)
    refine (abs_sub _ _).trans ((add_le_add h2 hoa).trans (le_of_eq ?_))
    ring
  have hBb : |fl (x - m) - (x - a')| ≤ M * u * ((n + 15) / 2) := by
    have e : fl (x - m) - (x - a') = (fl (x - m) - (x - m)) - (m - a') := by ring
    rw [e]
    have h2 := (rel' (x - m)).trans (mul_le_mul_of_nonneg_right (two m hm) hu0.le)
    refine (abs_sub _ _).trans ((add_le_add h2 hma).trans (le_of_eq ?_))
    ring
  have hb0 := two a' ha'
  generalize fl (x - o) = A at *
  generalize fl (x - m) = B at *
  -- the product
  have hAB : |A * B - (x - a) * (x - a')| ≤ M ^ 2 * u * (1.005 * (n + 15) + (n + 14)) := by
    have e : A * B - (x - a) * (x - a') = A * (B - (x - a')) + (x - a') * (A - (x - a)) := by ring
    rw [e]
    refine (abs_add_le _ _).trans ?_
    rw [abs_mul, abs_mul]
    have h1 := mul_le_mul hA hBb (abs_nonneg _) (by positivity)
    have h2 := mul_le_mul hb0 hAa (abs_nonneg _) (by positivity)
    refine (add_le_add h1 h2).trans (le_of_eq ?_)
    ring
  have habs : |A * B| ≤ M ^ 2 * 4.05 := by
    rw [abs_mul]
    refine (mul_le_mul hA hB (abs_nonneg _) (by positivity)).trans ?_
    have : 0 ≤ M ^ 2 := by positivity
    nlinarith
  have hP : |fl (A * B) - A * B| ≤ M ^ 2 * u * 4.05 := by
    refine (rel' (A * B)).trans ((mul_le_mul_of_nonneg_right habs hu0.le).trans (le_of_eq ?_))
    ring
  have hPa : |fl (A * B)| ≤ M ^ 2 * 4.1 := by
    have h1 := abs_add_le (fl (A * B) - A * B) (A * B)
    rw [sub_add_cancel] at h1
    have h2 : M ^ 2 * u * 4.05 ≤ M ^ 2 * (1 / 2048) * 4.05 := by gcongr
    have : 0 ≤ M ^ 2 := by positivity
    linarith
  generalize fl (A * B) = P at *
  -- the sum
  have hSa : |S| ≤ M ^ 2 * (2 * n) := by
    have h1 := abs_add_le (S - T) T
    rw [sub_add_cancel, abs_of_nonneg hT] at h1
    have h2 : u * (3 * (n - 1) ^ 2 + 40 * (n - 1)) ≤ n := by
      have : 100 * n * u * n ≤ 1 * n := mul_le_mul_of_nonneg_right hs (by linarith)
      have h3 : 3 * (n - 1) ^ 2 + 40 * (n - 1) ≤ 100 * n * n := by nlinarith
      have := mul_le_mul_of_nonneg_left h3 hu0.le
      nlinarith
    have h3 : M ^ 2 * (u * (3 * (n - 1) ^ 2 + 40 * (n - 1))) ≤ M ^ 2 * n := mul_le_mul_of_nonneg_left h2 (by positivity)
    rw [← mul_assoc] at h3
    linarith
  have hfin : |fl (S + P) - (S + P)| ≤ M ^ 2 * u * (2 * n + 4.1) := by
    refine (rel' (S + P)).trans ?_
    have h1 : |S + P| ≤ M ^ 2 * (2 * n) + M ^ 2 * 4.1 := (abs_add_le _ _).trans (add_le_add hSa hPa)
    refine (mul_le_mul_of_nonneg_right h1 hu0.le).trans (le_of_eq ?_)
    ring
  have e : fl (S + P) - (T + (x - a) * (x - a')) =
      (fl (S + P) - (S + P)) + (S - T) + (P - A * B) + (A * B - (x - a) * (x - a')) := by ring
  rw [e]
  refine ((abs_add_le _ _).trans (add_le_add ((abs_add_le _ _).trans (add_le_add ((abs_add_le _ _).trans
    (add_le_add hfin hS)) hP)) hAB)).trans ?_
  rw [← mul_add, ← mul_add, ← mul_add]
  refine mul_le_mul_of_nonneg_left ?_ hw
  nlinarith

theorem Close.push {M x : ℝ} {s : State} {l : List ℝ} (h : Close p M s l) (hl' : ∀ y ∈ l, |y| ≤ M)
    (hx : |x| ≤ M) (hxf : IsFloat p x) (hlen : 100 * (l.length + 1) ≤ 2 ^ p) :
    Close p M (pushBack fl s x) (l ++ [x]) := by
  have hM : 0 ≤ M := (abs_nonneg _).trans hx
  have hc : fl (s.n + 1) = ((l.length + 1 : ℕ) : ℝ) := by
    rw [h.count]
    have := hfl.self (isFloat_nat (p := p) (n := l.length + 1) (by omega) (by omega))
    rw [← this]
    push_cast
    rfl
  have hlen' : (l ++ [x]).length = l.length + 1 := by simp
  by_cases hl : l = []
  · subst hl
    have e : fl (s.n + 1) = 1 := by simpa using hc
    have es : pushBack fl s x = { s with n := 1, oldMean := x, newMean := x, oldVariance := 0 } := by
      simp only [pushBack, e, if_true]
    rw [es]
    refine ⟨by simp, fun _ => ⟨hx, hxf⟩, fun _ => ?_, fun _ => ?_, fun _ => rfl, by simp⟩
    · simp [average]; positivity
    · simp [deviation, average]; positivity
  · have hpos := List.length_pos_iff.2 hl
    obtain ⟨N, hN⟩ : ∃ N : ℝ, N = ((l.length + 1 : ℕ) : ℝ) := ⟨_, rfl⟩
    have hN' : (l.length : ℝ) = N - 1 := by rw [hN]; push_cast; ring
    have hn2 : 2 ≤ N := by
      have : (1 : ℝ) ≤ l.length := by exact_mod_cast hpos
      linarith
    obtain ⟨d1, d2⟩ := h.small hl
    have d3 := h.mean hl
    have d4 := h.square hl
    rw [← hN] at hc
    have es : pushBack fl s x = ⟨N, fl (s.oldMean + fl (fl (x - s.oldMean) / N)),
        fl (s.oldVariance + fl (fl (x - s.oldMean) * fl (x - fl (s.oldMean + fl (fl (x - s.oldMean) / N))))),
        fl (s.oldMean + fl (fl (x - s.oldMean) / N)),
        fl (s.oldVariance + fl (fl (x - s.oldMean) * fl (x - fl (s.oldMean + fl (fl (x - s.oldMean) / N)))))⟩ := by
      simp only [pushBack, hc]
      rw [if_neg (by linarith)]
    rw [es]
    have eN : ((l ++ [x]).length : ℝ) = N := by rw [hlen', hN]
    have ea := average_append l x hl
    have ed := deviation_append l x hl
    have eN1 : (l.length : ℝ) + 1 = N := by rw [hN']; ring
    rw [eN1] at ea
    rw [hN'] at d3 d4
    have hall : ∀ y ∈ l ++ [x], |y| ≤ M := by
      intro y hy
      rcases List.mem_append.1 hy with h | h
      · exact hl' y h
      · rw [List.mem_singleton.1 h]; exact hx
    have hb := mean_between hfl (by omega) d2 hxf hn2
    have hmM : |fl (s.oldMean + fl (fl (x - s.oldMean) / N))| ≤ M := by
      have h1 := abs_le.1 d1
      have h2 := abs_le.1 hx
      exact abs_le.2 ⟨le_trans (le_min h1.1 h2.1) hb.1, le_trans hb.2 (max_le h1.2 h2.2)⟩
    have hmean : |fl (s.oldMean + fl (fl (x - s.oldMean) / N)) - average (l ++ [x])| ≤
        M * (1 / 2 ^ p) * ((N + 11) / 2) := by
      rw [ea]
      refine (mean_step hfl hp hn2 d1 hx d3).trans (le_of_eq ?_)
      field_simp
      ring
    refine ⟨eN.symm, fun _ => ⟨hmM, (hfl _).1⟩, fun _ => by rw [eN]; exact hmean, fun _ => ?_, fun _ => rfl,
      fun _ => rfl⟩
    rw [eN, ed]
    have hD := deviation_bound l hl'
    rw [hN'] at hD
    refine square_step hfl hp hn2 ?_ d1 hx hmM (average_le _ hall hM) (d3.trans (le_of_eq (by ring))) hmean hD.1
      (hD.2.trans ?_) d4
    · have : (100 * (l.length + 1) : ℝ) ≤ 2 ^ p := by exact_mod_cast hlen
      rw [eN1] at this
      rw [mul_one_div, div_le_one (by positivity)]
      exact this
    · have : 0 ≤ M ^ 2 := by positivity
      nlinarith

theorem variance_error {M S T : ℝ} {k : ℕ} (hk : 1 < k) (hlen : 100 * k ≤ 2 ^ p)
    (hS : |S - T| ≤ M ^ 2 * (1 / 2 ^ p) * (3 * k ^ 2 + 40 * k)) (hT : 0 ≤ T ∧ T ≤ M ^ 2 * k) :
    |fl (S / (k - 1)) - T / (k - 1)| ≤ M ^ 2 * (6 * k + 84) / 2 ^ p := by
  have hlen' : (100 * k : ℝ) ≤ 2 ^ p := by exact_mod_cast hlen
  have hk2 : (2 : ℝ) ≤ k := by exact_mod_cast hk
  have hs : (100 * k : ℝ) * (1 / 2 ^ p) ≤ 1 := by rwa [mul_one_div, div_le_one (by positivity)]
  have hu0 : (0 : ℝ) < 1 / 2 ^ p := by positivity
  have rel' : ∀ y, |fl y - y| ≤ |y| * (1 / 2 ^ p) := fun y => by
    have := hfl.relative (by omega) y
    rwa [div_eq_mul_one_div] at this
  rw [div_eq_mul_one_div (M ^ 2 * (6 * (k : ℝ) + 84))]
  generalize (1 : ℝ) / 2 ^ p = u at *
  generalize (k : ℝ) = n at *
  have hM : 0 ≤ M ^ 2 := by positivity
  have hw : 0 ≤ M ^ 2 * u := by positivity
  have hn : 0 < n - 1 := by linarith
  have hSa : |S| ≤ M ^ 2 * (2 * n) := by
    have h1 := abs_add_le (S - T) T
    rw [sub_add_cancel, abs_of_nonneg hT.1] at h1
    have h2 : u * (3 * n ^ 2 + 40 * n) ≤ n := by
      have : 100 * n * u * n ≤ 1 * n := mul_le_mul_of_nonneg_right hs (by linarith)
      have h3 : 3 * n ^ 2 + 40 * n ≤ 100 * n * n := by nlinarith
      have := mul_le_mul_of_nonneg_left h3 hu0.le
      nlinarith
    have h3 := mul_le_mul_of_nonneg_left h2 hM
    rw [← mul_assoc] at h3
    linarith
  have d1 : |S / (n - 1)| ≤ M ^ 2 * 4 := by
    rw [abs_div, abs_of_pos hn, div_le_iff₀ hn]
    refine hSa.trans ?_
    rw [mul_assoc]
    exact mul_le_mul_of_nonneg_left (by linarith) hM
  have d2 : |S / (n - 1) - T / (n - 1)| ≤ M ^ 2 * u * (6 * n + 80) := by
    rw [← sub_div, abs_div, abs_of_pos hn, div_le_iff₀ hn]
    refine hS.trans ?_
    rw [mul_assoc _ _ (n - 1)]
    exact mul_le_mul_of_nonneg_left (by nlinarith) hw
  have d3 := (rel' (S / (n - 1))).trans (mul_le_mul_of_nonneg_right d1 hu0.le)
  have e : fl (S / (n - 1)) - T / (n - 1) = (fl (S / (n - 1)) - S / (n - 1)) + (S / (n - 1) - T / (n - 1)) := by ring
  rw [e]
  refine (abs_add_le _ _).trans ((add_le_add d3 d2).trans (le_of_eq ?_))
  ring

theorem close_pushes {M : ℝ} (g : State) (l : List ℝ) (h : ∀ x ∈ l, IsFloat p x ∧ |x| ≤ M)
    (hlen : 100 * l.length ≤ 2 ^ p) : Close p M (l.foldl (pushBack fl) (clear g)) l := by
  induction l using List.reverseRecOn with
  | nil => exact ⟨by simp [clear], by simp, by simp, by simp, by simp, by simp⟩
  | append_singleton l x ih =>
    rw [List.length_append, List.length_singleton] at hlen
    rw [List.foldl_append, List.foldl_cons, List.foldl_nil]
    have hx := h x (by simp)
    exact (ih (fun y hy => h y (by simp [hy])) (by omega)).push hfl hp (fun y hy => (h y (by simp [hy])).2) hx.2 hx.1 hlen

end

/-- Only the values since the last clear matter. -/
theorem run_pushes (fl : ℝ → ℝ) (g : State) (ops : List CumStat.Op) :
    ∃ g', run fl g ops = (sinceClear ops).foldl (pushBack fl) (clear g') := by
  induction ops using List.reverseRecOn with
  | nil => exact ⟨g, rfl⟩
  | append_singleton ops op ih =>
    obtain ⟨g', hg⟩ := ih
    unfold run sinceClear at hg ⊢
    rw [List.foldl_append, List.foldl_append, hg]
    cases op with
    | push x => exact ⟨g', by simp [List.foldl_append]⟩
    | clear => exact ⟨_, rfl⟩

theorem push_n (fl : ℝ → ℝ) (s : State) (x : ℝ) : (pushBack fl s x).n = fl (s.n + 1) := by
  unfold pushBack
  dsimp only
  split <;> rfl

theorem count_pushes {p : ℕ} {fl : ℝ → ℝ} (hfl : Rounds p fl) (hp : 1 ≤ p) (g : State) (l : List ℝ)
    (hlen : l.length ≤ 2 ^ p) : (l.foldl (pushBack fl) (clear g)).n = l.length := by
  induction l using List.reverseRecOn with
  | nil => simp [clear]
  | append_singleton l x ih =>
    rw [List.length_append, List.length_singleton] at hlen ⊢
    rw [List.foldl_append, List.foldl_cons, List.foldl_nil]
    rw [push_n, ih (by omega)]
    have := hfl.self (isFloat_nat (p := p) (n := l.length + 1) hp hlen)
    rw [← this]
    push_cast
    rfl

/-- There is no number of `p` bits between `2^p` and `2^p + 2`. -/
theorem gap {p : ℕ} (hp : 1 ≤ p) {y : ℝ} (h : IsFloat p y) : y ≤ 2 ^ p ∨ 2 ^ p + 2 ≤ y := by
  obtain ⟨q, rfl⟩ : ∃ q, p = q + 1 := ⟨p - 1, by omega⟩
  obtain ⟨m, e, hm, rfl⟩ := h
  have hm' : (m : ℝ) ≤ 2 ^ (q + 1) := by
    have := (le_abs_self m).trans hm.le
    exact_mod_cast this
  by_cases he : e ≤ 0
  · left
    have h1 : (2 : ℝ) ^ e ≤ 1 := zpow_le_one_of_nonpos₀ (by norm_num) he
    have h0 : (0 : ℝ) < 2 ^ e := by positivity
    rcases le_or_gt (m : ℝ) 0 with h | h
    · exact (mul_nonpos_of_nonpos_of_nonneg h h0.le).trans (by positivity)
    · nlinarith
  · obtain ⟨k, rfl⟩ : ∃ k : ℕ, e = k + 1 := ⟨(e - 1).toNat, by omega⟩
    have e1 : (m : ℝ) * 2 ^ ((k : ℤ) + 1) = ((2 * (m * 2 ^ k) : ℤ) : ℝ) := by
      rw [zpow_add₀ (by norm_num)]
      push_cast
      rw [zpow_natCast]
      ring
    rw [e1]
    rcases le_or_gt (m * 2 ^ k) ((2 : ℤ) ^ q) with h | h
    · left
      have : 2 * (m * 2 ^ k) ≤ (2 : ℤ) ^ (q + 1) := by rw [pow_succ]; linarith
      exact_mod_cast this
    · right
      have : (2 : ℤ) ^ (q + 1) + 2 ≤ 2 * (m * 2 ^ k) := by rw [pow_succ]; linarith
      exact_mod_cast this

/-- Half way between `2^p` and `2^p + 2` it may be rounded down. -/
theorem rounds_down {p : ℕ} {fl : ℝ → ℝ} (hp : 1 ≤ p) (hfl : Rounds p fl) :
    Rounds p fun x => if x = 2 ^ p + 1 then 2 ^ p else fl x := by
  intro x
  dsimp only
  split
  next h =>
    subst h
    refine ⟨by simpa using isFloat_nat (p := p) (n := 2 ^ p) hp le_rfl, fun y hy => ?_⟩
    rw [show (2 : ℝ) ^ p - (2 ^ p + 1) = -1 by ring, abs_neg, abs_one]
    rcases gap hp hy with h | h
    · rw [abs_of_nonpos (by linarith)]; linarith
    · rw [abs_of_nonneg (by linarith)]; linarith
  next h => exact hfl x

/-- A stuck counter. -/
theorem stuck {p : ℕ} {fl : ℝ → ℝ} (hd : fl (2 ^ p + 1) = 2 ^ p) (l : List ℝ) (s : State) (hs : s.n = 2 ^ p) :
    (l.foldl (pushBack fl) s).n = 2 ^ p := by
  induction l generalizing s with
  | nil => exact hs
  | cons x l ih => exact ih _ (by rw [push_n, hs, hd])

/-- The numbers of `p` bits from a half on are multiples of `1/2^p`. -/
theorem multiple {p : ℕ} {y : ℝ} (h : IsFloat p y) (hy : 1 / 2 ≤ y) : ∃ j : ℤ, y = j * (1 / 2 ^ p) := by
  obtain ⟨m, e, hm, rfl⟩ := h
  have he : -(p : ℤ) ≤ e := by
    by_contra hc
    have h1 : (2 : ℝ) ^ e ≤ 2 ^ (-(p : ℤ) - 1) := zpow_le_zpow_right₀ (by norm_num) (by omega)
    have h0 : (0 : ℝ) < 2 ^ e := by positivity
    have hm' : (m : ℝ) < 2 ^ p := by
      have := (le_abs_self m).trans_lt hm
      exact_mod_cast this
    have h2 : (m : ℝ) * 2 ^ e < 2 ^ p * 2 ^ (-(p : ℤ) - 1) := by
      have : (m : ℝ) * 2 ^ e < 2 ^ p * 2 ^ e := mul_lt_mul_of_pos_right hm' h0
      exact this.trans_le (mul_le_mul_of_nonneg_left h1 (by positivity))
    rw [zpow_sub₀ (by norm_num), zpow_neg, zpow_natCast] at h2
    have : (2 : ℝ) ^ p * ((2 ^ p)⁻¹ / 2 ^ (1 : ℤ)) = 1 / 2 := by
      rw [mul_div_assoc', mul_inv_cancel₀ (by positivity)]
      norm_num
    linarith
  obtain ⟨k, hk⟩ : ∃ k : ℕ, e = (k : ℤ) - p := ⟨(e + p).toNat, by omega⟩
  refine ⟨m * 2 ^ k, ?_⟩
  rw [hk, zpow_sub₀ (by norm_num)]
  push_cast
  rw [zpow_natCast, zpow_natCast]
  ring

/-- A zero more, with a mean above a half and the counter at `2^p`. -/
theorem fade_step {p : ℕ} {fl : ℝ → ℝ} (hp : 2 ≤ p) (hfl : Rounds p fl) (hd : fl (2 ^ p + 1) = 2 ^ p) (s : State)
    (hs : s.n = 2 ^ p) (k : ℕ) (hk : k + 1 ≤ 2 ^ (p - 1)) (hm : s.oldMean = 1 - k * (1 / 2 ^ p)) :
    (pushBack fl s 0).n = 2 ^ p ∧ (pushBack fl s 0).oldMean = 1 - (k + 1 : ℕ) * (1 / 2 ^ p) ∧
    (pushBack fl s 0).newMean = (pushBack fl s 0).oldMean := by
  obtain ⟨q, rfl⟩ : ∃ q, p = q + 1 := ⟨p - 1, by omega⟩
  have hu : (0 : ℝ) < 1 / 2 ^ (q + 1) := by positivity
  have hhalf : (2 : ℝ) ^ q * (1 / 2 ^ (q + 1)) = 1 / 2 := by rw [pow_succ]; field_simp
  have hk' : ((k : ℝ) + 1) ≤ 2 ^ q := by exact_mod_cast hk
  have grid : ∀ j : ℕ, j ≤ 2 ^ q → IsFloat (q + 1) (1 - j * (1 / 2 ^ (q + 1))) := by
    intro j hj
    have := isFloat_grid (p := q + 1) (by omega) (k := 2 ^ (q + 1) - j) (E := -((q + 1 : ℕ) : ℤ)) (by
      have : (j : ℤ) ≤ 2 ^ q := by exact_mod_cast hj
      have h2 : (2 : ℤ) ^ (q + 1) = 2 * 2 ^ q := by rw [pow_succ]; ring
      rw [abs_of_nonneg (by linarith)]
      linarith)
    rw [zpow_neg, zpow_natCast] at this
    have e : (1 : ℝ) - j * (1 / 2 ^ (q + 1)) = ((2 ^ (q + 1) - j : ℤ) : ℝ) * (2 ^ (q + 1))⁻¹ := by
      push_cast
      field_simp
    rw [e]
    exact this
  have f1 : IsFloat (q + 1) s.oldMean := by rw [hm]; exact grid k (by simpa using (Nat.le_of_succ_le hk))
  have hkp : (k : ℝ) * (1 / 2 ^ (q + 1)) + 1 / 2 ^ (q + 1) ≤ 1 / 2 := by
    rw [← hhalf]
    have := mul_le_mul_of_nonneg_right hk' hu.le
    linarith
  have hk0 : 0 ≤ (k : ℝ) * (1 / 2 ^ (q + 1)) := by positivity
  have f2 : IsFloat (q + 1) (s.oldMean - 1 / 2 ^ (q + 1)) := by
    have := grid (k + 1) (by simpa using hk)
    rw [hm]
    convert this using 1
    push_cast
    ring
  have e1 : fl (0 - s.oldMean) = -s.oldMean := by rw [zero_sub]; exact hfl.self f1.neg
  have e2 : fl (-s.oldMean / 2 ^ (q + 1)) = -s.oldMean / 2 ^ (q + 1) := by
    apply hfl.self
    obtain ⟨m, e, h1, h2⟩ := f1.neg
    refine ⟨m, e - (q + 1 : ℕ), h1, ?_⟩
    rw [h2, zpow_sub₀ (by norm_num), zpow_natCast]
    ring
  have e3 : fl (s.oldMean + -s.oldMean / 2 ^ (q + 1)) = s.oldMean - 1 / 2 ^ (q + 1) := by
    have ez : s.oldMean + -s.oldMean / 2 ^ (q + 1) = s.oldMean - s.oldMean * (1 / 2 ^ (q + 1)) := by ring
    rw [ez]
    generalize hud : (1 : ℝ) / 2 ^ (q + 1) = u at *
    generalize s.oldMean = o at *
    have ho1 : o ≤ 1 := by linarith
    have ho2 : 1 / 2 + u ≤ o := by linarith
    have h1 : o - u ≤ fl (o - o * u) := hfl.ge f2 (by nlinarith)
    have h2 : fl (o - o * u) ≤ o := hfl.le f1 (by nlinarith)
    have h3 := (hfl (o - o * u)).2 _ f2
    obtain ⟨j, hj⟩ := multiple (hfl (o - o * u)).1 (by linarith)
    obtain ⟨i, hi⟩ := multiple f2 (by linarith)
    rw [hud] at hj hi
    rw [abs_of_nonpos (by nlinarith : o - u - (o - o * u) ≤ 0)] at h3
    have h4 := (abs_le.1 h3).2
    have hlt : fl (o - o * u) < o := by nlinarith
    rw [hj] at h1 hlt ⊢
    rw [hi] at h1 ⊢
    have ho : o = i * u + u := by linarith
    have j1 : i ≤ j := by
      have := le_of_mul_le_mul_right h1 hu
      exact_mod_cast this
    have j2 : j < i + 1 := by
      rw [ho] at hlt
      have : (j : ℝ) * u < (i + 1) * u := by linarith
      have := lt_of_mul_lt_mul_right this hu.le
      exact_mod_cast this
    rw [show j = i by omega]
  have hn : fl (s.n + 1) = 2 ^ (q + 1) := by rw [hs, hd]
  have hne : ((2 : ℝ) ^ (q + 1)) ≠ 1 := by
    have : (1 : ℝ) < 2 ^ (q + 1) := one_lt_pow₀ (by norm_num) (by omega)
    exact this.ne'
  unfold pushBack
  dsimp only
  rw [hn, if_neg hne]
  dsimp only
  rw [e1, e2, e3]
  refine ⟨rfl, ?_, rfl⟩
  rw [hm]
  push_cast
  ring

theorem fade {p : ℕ} {fl : ℝ → ℝ} (hp : 2 ≤ p) (hfl : Rounds p fl) (hd : fl (2 ^ p + 1) = 2 ^ p) (s : State)
    (hs : s.n = 2 ^ p) (hm : s.oldMean = 1) (hm' : s.newMean = s.oldMean) (k : ℕ) (hk : k ≤ 2 ^ (p - 1)) :
    ((List.replicate k 0).foldl (pushBack fl) s).n = 2 ^ p ∧
    ((List.replicate k 0).foldl (pushBack fl) s).oldMean = 1 - k * (1 / 2 ^ p) ∧
    ((List.replicate k 0).foldl (pushBack fl) s).newMean = ((List.replicate k 0).foldl (pushBack fl) s).oldMean := by
  induction k with
  | zero => simpa using ⟨hs, hm, hm'⟩
  | succ k ih =>
    obtain ⟨h1, h2, h3⟩ := ih (by omega)
    rw [List.replicate_succ', List.foldl_append, List.foldl_cons, List.foldl_nil]
    exact fade_step hp hfl hd _ h1 k hk h2

end Ecl.CumStatFloat
