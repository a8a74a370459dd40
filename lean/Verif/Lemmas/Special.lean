import Verif.Spec.Special
import Verif.Lemmas.Statistics
import Verif.Lemmas.Angle
import Verif.Props.C60_C61_Segment

/-! # Arithmetic with NaN and infinities -/
set_option autoImplicit false
set_option linter.unusedSimpArgs false

namespace Ecl.Special
open Ecl Ecl.Poly Ecl.Poly.Ext Ecl.Spec

theorem finite_iff (e : Ext) : Numeric e ↔ ∃ x, e = num x := by
  cases e <;> simp [Numeric]

theorem numbers_append (l : List Ext) (x : ℝ) : numbers (l ++ [num x]) = numbers l ++ [x] := by
  simp [numbers]

theorem numbers_length (l : List Ext) (h : ∀ e ∈ l, Numeric e) : (numbers l).length = l.length := by
  induction l with
  | nil => rfl
  | cons a t ih =>
    obtain ⟨x, rfl⟩ := (finite_iff a).1 (h a (by simp))
    have := ih fun e he => h e (by simp [he])
    simpa [numbers] using this

theorem meanOf_finite {l : List Ext} (h : ∀ e ∈ l, Numeric e) : meanOf l = num (average (numbers l)) := by
  unfold meanOf; rw [if_pos h]

theorem meanOf_last {l : List Ext} (h : ∀ e ∈ l, Numeric e) (x : Ext) (hx : ¬ Numeric x) :
    meanOf (l ++ [x]) = x := by
  unfold meanOf
  rw [if_neg (fun hh => hx (hh x (by simp))), if_pos (by simpa using h)]
  simp

theorem meanOf_bad {l : List Ext} (h : ¬ ∀ e ∈ l, Numeric e) (x : Ext) : meanOf (l ++ [x]) = nan := by
  unfold meanOf
  rw [if_neg (fun hh => h fun e he => hh e (by simp [he])), if_neg (by simpa using h)]

theorem meanOf_not_finite {l : List Ext} (h : ¬ ∀ e ∈ l, Numeric e) : ¬ Numeric (meanOf l) := by
  rcases List.eq_nil_or_concat l with rfl | ⟨l', x, rfl⟩
  · exact absurd (by simp) h
  · rw [List.concat_eq_append] at *
    by_cases h' : ∀ e ∈ l', Numeric e
    · have hx : ¬ Numeric x := fun hx => h fun e he => by
        rcases List.mem_append.1 he with he | he
        · exact h' e he
        · rw [List.mem_singleton.1 he]; exact hx
      rw [meanOf_last h' x hx]; exact hx
    · rw [meanOf_bad h']; exact id

/-- The step of the mean. -/
noncomputable def step (m x : Ext) (n : ℕ) : Ext := add m (div false (sub x m) (num n))

theorem step_bad (m x : Ext) (n : ℕ) (hn : 0 < n) (h : ¬ Numeric m) : step m x n = nan := by
  have hn' : ¬ (n : ℝ) < 0 := by push Not; positivity
  have hn'' : n ≠ 0 := hn.ne'
  unfold step
  cases m with
  | nan => simp [add, sub, neg, div]
  | num y => exact absurd trivial h
  | inf s =>
    cases x with
    | nan => simp [add, sub, neg, div]
    | num y => cases s <;> simp [add, sub, neg, div, Ext.sign, hn'', hn']
    | inf t => cases s <;> cases t <;> simp [add, sub, neg, div, Ext.sign, hn'', hn']

theorem step_num (m x : ℝ) (n : ℕ) (hn : 0 < n) : step (num m) (num x) n = num (m + (x - m) / n) := by
  simp [step, add, sub, neg, div, hn.ne', sub_eq_add_neg]

theorem step_inf (m : ℝ) (x : Ext) (n : ℕ) (hn : 0 < n) (h : ¬ Numeric x) : step (num m) x n = x := by
  have hn' : ¬ (n : ℝ) < 0 := by push Not; positivity
  have hn'' : n ≠ 0 := hn.ne'
  unfold step
  cases x with
  | nan => simp [add, sub, neg, div]
  | num y => exact absurd trivial h
  | inf t => cases t <;> simp [add, sub, neg, div, Ext.sign, hn'', hn']

theorem meanOf_step (l : List Ext) (x : Ext) (hl : l ≠ []) :
    step (meanOf l) x (l.length + 1) = meanOf (l ++ [x]) := by
  by_cases h : ∀ e ∈ l, Numeric e
  · by_cases hx : Numeric x
    · obtain ⟨y, rfl⟩ := (finite_iff x).1 hx
      have h' : ∀ e ∈ l ++ [num y], Numeric e := by
        intro e he
        rcases List.mem_append.1 he with he | he
        · exact h e he
        · rw [List.mem_singleton.1 he]; trivial
      have hlen := numbers_length l h
      rw [meanOf_finite h, meanOf_finite h', step_num _ _ _ (by omega), numbers_append,
        CumStat.average_append _ _ (by rw [← List.length_pos_iff, hlen]; exact List.length_pos_iff.2 hl), hlen]
      push_cast; rfl
    · rw [meanOf_finite h, meanOf_last h x hx, step_inf _ _ _ (by omega) hx]
  · rw [meanOf_bad h, step_bad _ _ _ (by omega) (meanOf_not_finite h)]

/-- The members describe the values pushed. -/
structure Describes (s : Stats) (l : List Ext) : Prop where
  count : s.n = l.length
  some : l ≠ [] → s.newMean = meanOf l ∧ s.oldMean = meanOf l
  dev : l ≠ [] → (∀ e ∈ l, Numeric e) → s.oldVariance = num (deviation (numbers l))
  more : 1 < l.length → (∀ e ∈ l, Numeric e) → s.newVariance = num (deviation (numbers l))
  bad : 1 < l.length → (¬ ∀ e ∈ l, Numeric e) → s.newVariance = nan

theorem sub_nan (x : Ext) : sub x nan = nan := by cases x <;> rfl
theorem mul_nan (x : Ext) : mul x nan = nan := by cases x <;> rfl
theorem add_nan (x : Ext) : add x nan = nan := by cases x <;> rfl
theorem nan_add (x : Ext) : add nan x = nan := by cases x <;> rfl
theorem nan_mul (x : Ext) : mul nan x = nan := by cases x <;> rfl
theorem nan_sub (x : Ext) : sub nan x = nan := by cases x <;> rfl

theorem sub_self_bad (x : Ext) (h : ¬ Numeric x) : sub x x = nan := by
  cases x with
  | nan => rfl
  | num y => exact absurd trivial h
  | inf s => cases s <;> simp [sub, neg, add]

theorem mem_snoc_finite {l : List Ext} {x : Ext} :
    (∀ e ∈ l ++ [x], Numeric e) ↔ (∀ e ∈ l, Numeric e) ∧ Numeric x := by
  constructor
  · intro h; exact ⟨fun e he => h e (by simp [he]), h x (by simp)⟩
  · rintro ⟨h, hx⟩ e he
    rcases List.mem_append.1 he with he | he
    · exact h e he
    · rw [List.mem_singleton.1 he]; exact hx

theorem Describes.push {s : Stats} {l : List Ext} (h : Describes s l) (x : Ext) :
    Describes (pushBack s x) (l ++ [x]) := by
  by_cases hl : l = []
  · subst hl
    have hn : s.n = 0 := h.count
    have hm : meanOf [x] = x := by
      by_cases hx : Numeric x
      · obtain ⟨y, rfl⟩ := (finite_iff x).1 hx
        rw [meanOf_finite (by simpa [Numeric])]; simp [numbers, average]
      · exact meanOf_last (l := []) (by simp) x hx
    constructor
    · simp [pushBack, hn]
    · intro _; simp [pushBack, hn, hm]
    · intro _ hf
      obtain ⟨y, rfl⟩ := (finite_iff x).1 (hf x (by simp))
      simp [pushBack, hn, numbers, deviation, average]
    · intro hc; simp at hc
    · intro hc; simp at hc
  · have hp : 0 < l.length := List.length_pos_iff.2 hl
    have hn : s.n + 1 ≠ 1 := by rw [h.count]; omega
    obtain ⟨-, hm⟩ := h.some hl
    have hs := meanOf_step l x hl
    have hpush : pushBack s x =
        { n := s.n + 1, oldMean := meanOf (l ++ [x]), newMean := meanOf (l ++ [x]),
          oldVariance := add s.oldVariance (mul (sub x (meanOf l)) (sub x (meanOf (l ++ [x])))),
          newVariance := add s.oldVariance (mul (sub x (meanOf l)) (sub x (meanOf (l ++ [x])))) } := by
      unfold pushBack
      dsimp only
      rw [if_neg hn, hm, h.count, ← hs]
      simp only [step]
    have hfin : (∀ e ∈ l ++ [x], Numeric e) →
        add s.oldVariance (mul (sub x (meanOf l)) (sub x (meanOf (l ++ [x])))) =
          num (deviation (numbers (l ++ [x]))) := by
      intro hf
      obtain ⟨hf1, hf2⟩ := mem_snoc_finite.1 hf
      obtain ⟨y, rfl⟩ := (finite_iff x).1 hf2
      have hlen := numbers_length l hf1
      have hne : numbers l ≠ [] := by rw [← List.length_pos_iff, hlen]; exact hp
      rw [h.dev hl hf1, meanOf_finite hf1, meanOf_finite hf, numbers_append,
        CumStat.deviation_append _ _ hne]
      simp [add, mul, sub, neg, sub_eq_add_neg]
    have hbad : (¬ ∀ e ∈ l ++ [x], Numeric e) →
        add s.oldVariance (mul (sub x (meanOf l)) (sub x (meanOf (l ++ [x])))) = nan := by
      intro hf
      by_cases hf1 : ∀ e ∈ l, Numeric e
      · have hx : ¬ Numeric x := fun hx => hf (mem_snoc_finite.2 ⟨hf1, hx⟩)
        rw [meanOf_last hf1 x hx, sub_self_bad x hx, mul_nan, add_nan]
      · rw [meanOf_bad hf1, sub_nan, mul_nan, add_nan]
    rw [hpush]
    exact ⟨by simp [h.count], fun _ => ⟨rfl, rfl⟩, fun _ => hfin, fun _ => hfin, fun _ => hbad⟩

theorem describes_foldl (ops : List StatsOp) (s : Stats) (l : List Ext) (h : Describes s l) :
    Describes (ops.foldl applyStats s)
      (ops.foldl (fun acc op => match op with | .push x => acc ++ [x] | .clear => []) l) := by
  induction ops generalizing s l with
  | nil => exact h
  | cons o t ih =>
    cases o with
    | push x => exact ih _ _ (h.push x)
    | clear =>
      exact ih _ _ ⟨rfl, fun hh => absurd rfl hh, fun hh => absurd rfl hh,
        fun hh => absurd hh (by simp), fun hh => absurd hh (by simp)⟩

theorem run_describes (garbage : Stats) (ops : List StatsOp) :
    Describes (runStats garbage ops) (pushed ops) :=
  describes_foldl ops _ _ ⟨rfl, fun hh => absurd rfl hh, fun hh => absurd rfl hh,
    fun hh => absurd hh (by simp), fun hh => absurd hh (by simp)⟩

/-! ## Angles -/

theorem wrap_num (a : ℝ) : wrapAngle (num a) = num (Angle.wrapAngle a) := by
  unfold wrapAngle Angle.wrapAngle
  by_cases h1 : a ≤ Real.pi
  · by_cases h2 : a ≥ -Real.pi
    · have : (le (num a) (num Real.pi) && ge (num a) (num (-Real.pi))) = true := by
        simp only [le, ge, gt, eq, Bool.and_eq_true, Bool.or_eq_true, decide_eq_true_eq]
        refine ⟨?_, ?_⟩
        · rcases lt_or_eq_of_le h1 with h | h
          · exact Or.inl h
          · exact Or.inr h.symm
        · rcases lt_or_eq_of_le h2 with h | h
          · exact Or.inl h
          · exact Or.inr h.symm
      rw [if_pos this, if_pos ⟨h1, h2⟩]
    · have h3 : a < 0 := by have := Real.pi_pos; linarith [not_le.1 h2]
      have : ¬ (le (num a) (num Real.pi) && ge (num a) (num (-Real.pi))) = true := by
        simp only [le, ge, gt, eq, Bool.and_eq_true, Bool.or_eq_true, decide_eq_true_eq]
        rintro ⟨-, h | h⟩
        · exact h2 h.le
        · exact h2 h.ge
      rw [if_neg this, if_neg (c := a ≤ Real.pi ∧ a ≥ -Real.pi) (fun h => h2 h.2)]
      simp [lt, gt, h3, fmod, add, sub, neg, sub_eq_add_neg]
  · have h3 : ¬ a < 0 := by have := Real.pi_pos; linarith [not_le.1 h1]
    have : ¬ (le (num a) (num Real.pi) && ge (num a) (num (-Real.pi))) = true := by
      simp only [le, ge, gt, eq, Bool.and_eq_true, Bool.or_eq_true, decide_eq_true_eq]
      rintro ⟨h | h, -⟩
      · exact h1 h.le
      · exact h1 h.ge
    rw [if_neg this, if_neg (c := a ≤ Real.pi ∧ a ≥ -Real.pi) (fun h => h1 h.1)]
    simp [lt, gt, h3, fmod, add, sub, neg, sub_eq_add_neg]

theorem wrap_bad (a : Ext) (h : ¬ Numeric a) : wrapAngle a = nan := by
  cases a with
  | nan => simp [wrapAngle, le, lt, ge, gt, eq, fmod, add, sub]
  | num y => exact absurd trivial h
  | inf s => cases s <;> simp [wrapAngle, le, lt, ge, gt, eq, fmod, add, sub, neg]

theorem add_finite (a b : Ext) : Numeric (add a b) ↔ Numeric a ∧ Numeric b := by
  cases a with
  | nan => simp [add, Numeric]
  | num x => cases b <;> simp [add, Numeric]
  | inf s =>
    cases b with
    | inf t => by_cases h : s = t <;> simp [add, Numeric, h]
    | _ => simp [add, Numeric]

theorem neg_finite (a : Ext) : Numeric (neg a) ↔ Numeric a := by cases a <;> simp [neg, Numeric]

theorem sub_finite (a b : Ext) : Numeric (sub a b) ↔ Numeric a ∧ Numeric b := by
  unfold sub; rw [add_finite, neg_finite]

theorem mul_finite (a b : Ext) : Numeric (mul a b) ↔ Numeric a ∧ Numeric b := by
  cases a with
  | nan => simp [mul, Numeric]
  | num x =>
    cases b with
    | inf t => by_cases h : x = 0 <;> simp [mul, Numeric, h]
    | _ => simp [mul, Numeric]
  | inf s =>
    cases b with
    | num x => by_cases h : x = 0 <;> simp [mul, Numeric, h]
    | _ => simp [mul, Numeric]

theorem wrap_finite (a : Ext) : Numeric (wrapAngle a) ↔ Numeric a := by
  by_cases h : Numeric a
  · obtain ⟨x, rfl⟩ := (finite_iff a).1 h
    rw [wrap_num]; simp [Numeric]
  · rw [wrap_bad a h]; exact ⟨fun hh => hh.elim, fun hh => (h hh).elim⟩

theorem wrap_nan (a : Ext) : wrapAngle a = nan ↔ ¬ Numeric a := by
  constructor
  · intro h hf
    have := (wrap_finite a).2 hf
    rw [h] at this; exact this
  · exact wrap_bad a

theorem apply_finite (v : Ext) (op : AngleOp) :
    Numeric (applyAngle v op) ↔ Numeric (operand op) ∧ (Assigns op ∨ Numeric v) := by
  cases op <;> simp only [applyAngle, wrap_finite, add_finite, sub_finite, mul_finite, operand, Assigns,
    true_or, and_true, false_or]
  case degrees x => simp [Numeric]
  all_goals exact and_comm

theorem apply_bad (v : Ext) (op : AngleOp) (h : ¬ Numeric (applyAngle v op)) : applyAngle v op = nan := by
  cases op <;> simp only [applyAngle] at h ⊢ <;> rw [wrap_finite] at h <;> exact wrap_bad _ h

theorem sinceAssigned_snoc (ops : List AngleOp) (op : AngleOp) :
    (Assigns op → sinceAssigned (ops ++ [op]) = [op]) ∧
    (¬ Assigns op → sinceAssigned (ops ++ [op]) = sinceAssigned ops ++ [op]) := by
  cases op <;> simp [sinceAssigned, Assigns]

theorem run_finite (ops : List AngleOp) :
    Numeric (runAngle ops) ↔ ∀ op ∈ sinceAssigned ops, Numeric (operand op) := by
  induction ops using List.reverseRecOn with
  | nil =>
    simp only [runAngle, List.foldl_nil, wrap_num, sinceAssigned, List.not_mem_nil, false_implies,
      implies_true, iff_true]
    trivial
  | append_singleton l op ih =>
    have : runAngle (l ++ [op]) = applyAngle (runAngle l) op := by simp [runAngle]
    rw [this, apply_finite, ih]
    by_cases h : Assigns op
    · rw [(sinceAssigned_snoc l op).1 h]; simp [h]
    · rw [(sinceAssigned_snoc l op).2 h]
      simp only [h, false_or, List.mem_append, List.mem_singleton]
      constructor
      · rintro ⟨h1, h2⟩ o (ho | rfl)
        · exact h2 o ho
        · exact h1
      · intro hh
        exact ⟨hh op (Or.inr rfl), fun o ho => hh o (Or.inl ho)⟩

theorem run_bad (ops : List AngleOp) (h : ¬ Numeric (runAngle ops)) : runAngle ops = nan := by
  rcases List.eq_nil_or_concat ops with rfl | ⟨l, op, rfl⟩
  · exact absurd (by simp only [runAngle, List.foldl_nil, wrap_num]; trivial) h
  · rw [List.concat_eq_append] at *
    have : runAngle (l ++ [op]) = applyAngle (runAngle l) op := by simp [runAngle]
    rw [this] at h ⊢
    exact apply_bad _ _ h

theorem apply_wraps (v : Ext) (op : AngleOp) : ∃ e, applyAngle v op = wrapAngle e := by
  cases op <;> exact ⟨_, rfl⟩

theorem run_wraps (ops : List AngleOp) : ∃ e, runAngle ops = wrapAngle e := by
  rcases List.eq_nil_or_concat ops with rfl | ⟨l, op, rfl⟩
  · exact ⟨_, rfl⟩
  · rw [List.concat_eq_append]
    have : runAngle (l ++ [op]) = applyAngle (runAngle l) op := by simp [runAngle]
    rw [this]; exact apply_wraps _ _

/-! ## Comparisons -/

theorem le_iff (a b : Ext) : le a b = true ↔ AtMost a b := by
  constructor
  · intro h
    cases a with
    | nan => cases b <;> simp [le, ge, gt, eq] at h
    | num x =>
      cases b with
      | nan => simp [le, ge, gt, eq] at h
      | num y =>
        simp only [le, ge, gt, eq, Bool.or_eq_true, decide_eq_true_eq] at h
        exact .numbers _ _ (h.elim _root_.le_of_lt (fun h => h.ge))
      | inf t => cases t <;> simp [le, ge, gt, eq] at h; exact .above _
    | inf s =>
      cases b with
      | nan => simp [le, ge, gt, eq] at h
      | num y => cases s <;> simp [le, ge, gt, eq] at h; exact .below _
      | inf t =>
        cases s <;> cases t <;> simp [le, ge, gt, eq] at h
        · exact .same _
        · exact .ends
        · exact .same _
  · intro h
    cases h with
    | numbers x y h =>
      simp only [le, ge, gt, eq, Bool.or_eq_true, decide_eq_true_eq]
      exact (lt_or_eq_of_le h).imp id Eq.symm
    | below x => simp [le, ge, gt]
    | above x => simp [le, ge, gt]
    | ends => simp [le, ge, gt]
    | same s => cases s <;> simp [le, ge, gt, eq]

theorem min_num (x y : ℝ) : min (num x) (num y) = num (Min.min x y) := by
  unfold min lt
  by_cases h : y < x
  · simp [gt, h, min_eq_right h.le]
  · simp [gt, h, min_eq_left (not_lt.1 h)]

/-! ## Distances -/

theorem squares_finite (d e : Ext) :
    Numeric (add (mul d d) (mul e e)) ↔ Numeric d ∧ Numeric e := by
  rw [add_finite, mul_finite, mul_finite, and_self, and_self]

theorem squares_bad (d e : Ext) (h : ¬ (Numeric d ∧ Numeric e)) :
    add (mul d d) (mul e e) = nan ∨ add (mul d d) (mul e e) = inf false := by
  cases d with
  | nan => left; simp [mul, add]
  | num x =>
    cases e with
    | nan => left; simp [mul, add]
    | num y => exact absurd ⟨trivial, trivial⟩ h
    | inf t => right; cases t <;> simp [mul, add]
  | inf s =>
    cases e with
    | nan => left; cases s <;> simp [mul, add]
    | num y => right; cases s <;> simp [mul, add]
    | inf t => right; cases s <;> cases t <;> simp [mul, add]

theorem div_bad (z : Bool) (d e : Ext) (hd : ¬ Numeric d) (he : ¬ Numeric e) : div z d e = nan := by
  cases d <;> cases e <;> simp_all [Numeric, div]

theorem ne_zero_bad (e : Ext) (h : ¬ Numeric e) : eq e (num 0) = false := by
  cases e <;> simp_all [Numeric, eq]

/-- Both coordinates are numbers. -/
def At (p : Position) (q : ℝ × ℝ) : Prop := p = (num q.1, num q.2)

theorem at_iff (p : Position) : (∃ q, At p q) ↔ Numeric p.1 ∧ Numeric p.2 := by
  obtain ⟨x, y⟩ := p
  simp only [At, Prod.mk.injEq, finite_iff]
  constructor
  · rintro ⟨q, h1, h2⟩; exact ⟨⟨_, h1⟩, ⟨_, h2⟩⟩
  · rintro ⟨⟨x, h1⟩, ⟨y, h2⟩⟩; exact ⟨(x, y), h1, h2⟩

theorem segment_num (a b p : ℝ × ℝ) :
    squaredDistanceFromPoint (num a.1, num a.2) (num b.1, num b.2) (num p.1, num p.2) =
      num (Segment.squaredDistanceFromPoint (Segment.make a.1 a.2 b.1 b.2) p.1 p.2) := by
  have hx1 : (Segment.make a.1 a.2 b.1 b.2).x1 = a.1 := by unfold Segment.make; split <;> rfl
  have hx2 : (Segment.make a.1 a.2 b.1 b.2).x2 = b.1 := by unfold Segment.make; split <;> rfl
  have hy1 : (Segment.make a.1 a.2 b.1 b.2).y1 = a.2 := by unfold Segment.make; split <;> rfl
  have hy2 : (Segment.make a.1 a.2 b.1 b.2).y2 = b.2 := by unfold Segment.make; split <;> rfl
  unfold squaredDistanceFromPoint Segment.squaredDistanceFromPoint Segment.nearest
  rw [hx1, hx2, hy1, hy2]
  simp only [sub, neg, add, mul, ← sub_eq_add_neg, eq]
  generalize hd : (p.1 - a.1) * (b.1 - a.1) + (p.2 - a.2) * (b.2 - a.2) = d
  generalize hl : (b.1 - a.1) * (b.1 - a.1) + (b.2 - a.2) * (b.2 - a.2) = l
  by_cases h0 : l = 0
  · simp [h0, lt, gt]; ring
  · simp only [h0, decide_false, Bool.not_false, if_true, div, if_false, ne_eq, not_false_eq_true]
    by_cases h1 : d / l < 0
    · simp [lt, gt, h1]; ring
    · by_cases h2 : d / l > 1
      · simp [lt, gt, h1, h2]; ring
      · simp [lt, gt, h1, h2, mul]; ring

theorem segment_bad_leg (a b p : Position) (h : ¬ ((∃ q, At a q) ∧ ∃ q, At b q)) :
    squaredDistanceFromPoint a b p = nan := by
  have hd : ¬ Numeric (add (mul (sub p.1 a.1) (sub b.1 a.1)) (mul (sub p.2 a.2) (sub b.2 a.2))) := by
    rw [at_iff, at_iff] at h
    simp only [add_finite, mul_finite, sub_finite]
    tauto
  have hl : ¬ Numeric (add (mul (sub b.1 a.1) (sub b.1 a.1)) (mul (sub b.2 a.2) (sub b.2 a.2))) := by
    rw [at_iff, at_iff] at h
    simp only [add_finite, mul_finite, sub_finite]
    tauto
  unfold squaredDistanceFromPoint
  simp only [ne_zero_bad _ hl, Bool.not_false, if_true, div_bad _ _ _ hd hl, nan_mul, add_nan, sub_nan]
  simp [lt, gt, add, mul, sub_nan]

theorem segment_bad_point (a b p : Position) (h : ¬ ∃ q, At p q) :
    squaredDistanceFromPoint a b p = nan ∨ squaredDistanceFromPoint a b p = inf false := by
  unfold squaredDistanceFromPoint
  dsimp only
  apply squares_bad
  rw [at_iff] at h
  rw [sub_finite, sub_finite]
  tauto

theorem gt_nan (a : Ext) : gt a nan = false := by cases a <;> rfl
theorem gt_inf (a : Ext) : gt a (inf false) = false := by cases a <;> simp [gt]

theorem loop_bad_point (p : Position) (h : ¬ ∃ q, At p q) (s : Position) (l : List Position) (best : Ext) :
    distanceLoop p s l best = best := by
  induction l generalizing s best with
  | nil => rfl
  | cons e t ih =>
    unfold distanceLoop
    rcases segment_bad_point s e p h with hd | hd
    · simp only [hd, gt_nan]; exact ih _ _
    · simp only [hd, gt_inf]; exact ih _ _

theorem onWholeLeg_cons (s e : Position) (l : List Position) (r : ℝ × ℝ) :
    OnWholeLeg (s :: e :: l) r ↔
      (∃ a b, At s a ∧ At e b ∧ OnSegment a b r) ∨ OnWholeLeg (e :: l) r := by
  constructor
  · rintro ⟨i, a, b, h1, h2, h3⟩
    cases i with
    | zero =>
      left
      simp only [List.getElem?_cons_zero, Option.some.injEq, Nat.zero_add, List.getElem?_cons_succ] at h1 h2
      exact ⟨a, b, h1, h2, h3⟩
    | succ i =>
      right
      simp only [List.getElem?_cons_succ] at h1 h2
      exact ⟨i, a, b, h1, by simpa using h2, h3⟩
  · rintro (⟨a, b, h1, h2, h3⟩ | ⟨i, a, b, h1, h2, h3⟩)
    · exact ⟨0, a, b, by simp [show s = _ from h1], by simp [show e = _ from h2], h3⟩
    · exact ⟨i + 1, a, b, by simpa using h1, by simpa using h2, h3⟩

theorem onWholeLeg_single (s : Position) (r : ℝ × ℝ) : ¬ OnWholeLeg [s] r := by
  rintro ⟨i, a, b, -, h, -⟩
  simp at h

/-- The squared distances that count: the best so far and those to the points of whole legs. -/
def Candidates (p : ℝ × ℝ) (best : Ext) (l : List Position) : Set ℝ :=
  {d | best = num d ∨ ∃ r, OnWholeLeg l r ∧ d = sqDist p r}

theorem loop_num (p : ℝ × ℝ) (s : Position) (l : List Position) (best : Ext)
    (hb : best = inf false ∨ ∃ b, best = num b) :
    (distanceLoop (num p.1, num p.2) s l best = inf false ∧ Candidates p best (s :: l) = ∅) ∨
    ∃ d, distanceLoop (num p.1, num p.2) s l best = num d ∧ IsLeast (Candidates p best (s :: l)) d := by
  induction l generalizing s best with
  | nil =>
    rcases hb with rfl | ⟨b, rfl⟩
    · left
      refine ⟨rfl, ?_⟩
      ext d
      simp [Candidates, onWholeLeg_single]
    · right
      refine ⟨b, rfl, Or.inl rfl, ?_⟩
      rintro d (h | ⟨r, hr, -⟩)
      · simp only [num.injEq] at h; exact h.le
      · exact absurd hr (onWholeLeg_single _ _)
  | cons e t ih =>
    unfold distanceLoop
    dsimp only
    by_cases hleg : (∃ q, At s q) ∧ ∃ q, At e q
    · obtain ⟨⟨a, ha⟩, ⟨b, hb'⟩⟩ := hleg
      have hs : squaredDistanceFromPoint s e (num p.1, num p.2) =
          num (Segment.squaredDistanceFromPoint (Segment.make a.1 a.2 b.1 b.2) p.1 p.2) := by
        rw [show s = _ from ha, show e = _ from hb']; exact segment_num a b p
      have hleast := Props.C60_segment a.1 a.2 b.1 b.2 p.1 p.2
      rw [hs]
      generalize Segment.squaredDistanceFromPoint (Segment.make a.1 a.2 b.1 b.2) p.1 p.2 = m at *
      have key : ∀ best' : Ext,
          ((best' = num m ∧ ∀ c, best = num c → m ≤ c) ∨ (best' = best ∧ ∃ c, best = num c ∧ c ≤ m)) →
          (distanceLoop (num p.1, num p.2) e t best' = inf false ∧
            Candidates p best (s :: e :: t) = ∅) ∨
          ∃ d, distanceLoop (num p.1, num p.2) e t best' = num d ∧
            IsLeast (Candidates p best (s :: e :: t)) d := by
        intro best' hbest'
        have hn : ∃ c, best' = num c := by
          rcases hbest' with ⟨h, -⟩ | ⟨h, c, hc, -⟩
          · exact ⟨m, h⟩
          · exact ⟨c, h.trans hc⟩
        rcases ih e best' (Or.inr hn) with ⟨-, he⟩ | ⟨d, hd, hl⟩
        · obtain ⟨c, hc⟩ := hn
          have : c ∈ Candidates p best' (e :: t) := Or.inl hc
          rw [he] at this; exact this.elim
        · right
          refine ⟨d, hd, ?_, ?_⟩
          · rcases hl.1 with h | ⟨r, hr, hdr⟩
            · rcases hbest' with ⟨h', -⟩ | ⟨h', -⟩
              · rw [h'] at h
                simp only [num.injEq] at h
                obtain ⟨r, hr, hm⟩ := hleast.1
                exact Or.inr ⟨r, (onWholeLeg_cons _ _ _ _).2 (Or.inl ⟨a, b, ha, hb', hr⟩), h ▸ hm⟩
              · exact Or.inl (h' ▸ h)
            · exact Or.inr ⟨r, (onWholeLeg_cons _ _ _ _).2 (Or.inr hr), hdr⟩
          · have hdm : d ≤ m := by
              rcases hbest' with ⟨h', -⟩ | ⟨h', c, hc, hcm⟩
              · exact hl.2 (Or.inl h')
              · exact (hl.2 (Or.inl (h'.trans hc))).trans hcm
            rintro x (h | ⟨r, hr, hx⟩)
            · rcases hbest' with ⟨h', hle⟩ | ⟨h', -⟩
              · exact hdm.trans (hle x h)
              · exact hl.2 (Or.inl (h'.trans h))
            · rcases (onWholeLeg_cons _ _ _ _).1 hr with ⟨a', b', ha', hb'', hseg⟩ | hr
              · have e1 : a' = a := by
                  have := ha'.symm.trans ha
                  simp only [Prod.mk.injEq, num.injEq] at this
                  exact Prod.ext this.1 this.2
                have e2 : b' = b := by
                  have := hb''.symm.trans hb'
                  simp only [Prod.mk.injEq, num.injEq] at this
                  exact Prod.ext this.1 this.2
                subst e1 e2
                exact hdm.trans (hleast.2 ⟨r, hseg, hx⟩)
              · exact hl.2 (Or.inr ⟨r, hr, hx⟩)
      apply key
      rcases hb with rfl | ⟨c, rfl⟩
      · left; simp [gt]
      · by_cases hc : c > m
        · left
          simp only [gt, hc, decide_true, if_true, true_and, num.injEq]
          rintro c' rfl; exact hc.le
        · right
          simp only [gt, hc, decide_false, Bool.false_eq_true, if_false, true_and]
          exact ⟨c, rfl, not_lt.1 hc⟩
    · rw [segment_bad_leg _ _ _ hleg, gt_nan]
      have hc : Candidates p best (s :: e :: t) = Candidates p best (e :: t) := by
        ext d
        simp only [Candidates, Set.mem_setOf_eq, onWholeLeg_cons]
        constructor
        · rintro (h | ⟨r, ⟨a, b, ha, hb', -⟩ | hr, hd⟩)
          · exact Or.inl h
          · exact absurd ⟨⟨a, ha⟩, ⟨b, hb'⟩⟩ hleg
          · exact Or.inr ⟨r, hr, hd⟩
        · rintro (h | ⟨r, hr, hd⟩)
          · exact Or.inl h
          · exact Or.inr ⟨r, Or.inr hr, hd⟩
      rw [hc]
      exact ih e best hb

end Ecl.Special
