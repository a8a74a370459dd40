import Verif.Lemmas.Special
import Verif.Props.C51_Angle
import Verif.Props.C39_C77_Math
import Mathlib.Tactic.NormNum

/-! # C130: NaN and infinities in scalar functions, angles, statistics and distances -/
set_option autoImplicit false

namespace Ecl.Props
open Ecl Ecl.Poly Ecl.Poly.Ext Ecl.Special Ecl.Spec

/-- **C130.** `sign` is the sign of every value that has one; `psign` and `nsign` agree with it except at
zero.  The sign of NaN is 0, and for the other two it is negative. -/
theorem C130_sign (x : Ext) (s : Int) :
    (HasSign x s → Special.sign x = s ∧ (s ≠ 0 → Special.psign x = s ∧ Special.nsign x = s)) ∧
    Special.psign (num 0) = 1 ∧ Special.nsign (num 0) = -1 ∧
    Special.sign nan = 0 ∧ Special.psign nan = -1 ∧ Special.nsign nan = -1 := by
  refine ⟨?_, ?_, ?_, ?_, ?_, ?_⟩
  · intro h
    cases h with
    | positive x h => simp [Special.sign, Special.psign, Special.nsign, ge, gt, h]
    | negative x h =>
      have h1 : ¬ 0 < x := not_lt.2 h.le
      have h2 : x ≠ 0 := h.ne
      simp [Special.sign, Special.psign, Special.nsign, Special.lt, ge, gt, eq, h, h1, h2]
    | zero => simp [Special.sign, Special.lt, gt]
    | plus => simp [Special.sign, Special.psign, Special.nsign, ge, gt]
    | minus => simp [Special.sign, Special.psign, Special.nsign, Special.lt, ge, gt, eq]
  all_goals simp [Special.sign, Special.psign, Special.nsign, Special.lt, ge, gt, eq]

/-- An infinity has a sign. -/
example : HasSign (inf true) (-1) ∧ Special.sign (inf true) = -1 :=
  ⟨.minus, ((C130_sign _ _).1 .minus).1⟩

/-- **C130.** `cube_root` of a number is a number, its cube root; infinities and NaN stay what they are. -/
theorem C130_cube_root (x : ℝ) (s : Bool) :
    Special.cubeRoot (num x) = num (Math.cubeRoot x) ∧
    Special.cubeRoot (inf s) = inf s ∧ Special.cubeRoot nan = nan := by
  refine ⟨?_, ?_, ?_⟩
  · have : Special.psign (num x) = Math.psign x := by
      unfold Special.psign Math.psign
      rcases lt_trichotomy x 0 with h | h | h
      · have h1 : ¬ 0 < x := not_lt.2 h.le
        have h2 : x ≠ 0 := h.ne
        have h3 : ¬ 0 ≤ x := not_le.2 h
        simp [ge, gt, eq, h1, h2, h3]
      · simp [ge, gt, eq, h]
      · simp [ge, gt, eq, h, h.le]
    simp [Special.cubeRoot, Special.abs, powThird, mul, Math.cubeRoot, this]
  · cases s <;> simp [Special.cubeRoot, Special.psign, Special.abs, powThird, mul, ge, gt, eq, Ext.sign]
  · simp [Special.cubeRoot, Special.abs, powThird, mul]

example : Special.cubeRoot (inf true) = inf true := (C130_cube_root 0 true).2.1

/-- **C130.** The norms of numbers are the Euclidean norms; with NaN among the coordinates they are NaN, and
otherwise, with an infinity among them, infinite. -/
theorem C130_norms (a b c : ℝ) (x y z : Ext) :
    Special.norm2 (num a) (num b) = num (Math.norm2 a b) ∧
    Special.norm3 (num a) (num b) (num c) = num (Math.norm3 a b c) ∧
    ((x = nan ∨ y = nan) → Special.norm2 x y = nan) ∧
    ((x = nan ∨ y = nan ∨ z = nan) → Special.norm3 x y z = nan) ∧
    (x ≠ nan → y ≠ nan → ¬ (Numeric x ∧ Numeric y) → Special.norm2 x y = inf false) ∧
    (x ≠ nan → y ≠ nan → z ≠ nan → ¬ (Numeric x ∧ Numeric y ∧ Numeric z) →
      Special.norm3 x y z = inf false) := by
  refine ⟨?_, ?_, ?_, ?_, ?_, ?_⟩
  · have : ¬ a * a + b * b < 0 := by nlinarith [mul_self_nonneg a, mul_self_nonneg b]
    simp [Special.norm2, mul, add, sqrt, this, Math.norm2]
  · have : ¬ a * a + b * b + c * c < 0 := by
      nlinarith [mul_self_nonneg a, mul_self_nonneg b, mul_self_nonneg c]
    simp [Special.norm3, mul, add, sqrt, this, Math.norm3]
  · rintro (rfl | rfl)
    · simp [Special.norm2, nan_mul, nan_add, sqrt]
    · simp [Special.norm2, nan_mul, add_nan, sqrt]
  · rintro (rfl | rfl | rfl)
    · simp [Special.norm3, nan_mul, nan_add, sqrt]
    · simp [Special.norm3, nan_mul, add_nan, nan_add, sqrt]
    · simp [Special.norm3, nan_mul, add_nan, sqrt]
  · intro hx hy h
    cases x <;> cases y <;> simp_all [Special.norm2, mul, add, sqrt, Numeric]
  · intro hx hy hz h
    cases x <;> cases y <;> cases z <;> simp_all [Special.norm3, mul, add, sqrt, Numeric]

example : Special.norm2 (num 3) (inf true) = inf false :=
  (C130_norms 0 0 0 (num 3) (inf true) nan).2.2.2.2.1 (by simp) (by simp) (by simp [Numeric])

namespace C130

theorem approx_iff (x y : Ext) (p : ℝ) : Special.isApprox x y (num p) = true ↔
    (∃ a b, x = num a ∧ y = num b ∧ |a - b| ≤ min |a| |b| * p) ∨
    (0 < p ∧ ∃ s, x = inf s ∧ y = inf !s) := by
  unfold Special.isApprox
  rw [le_iff]
  cases x with
  | nan =>
    simp only [nan_sub, Special.abs, reduceCtorEq, false_and, exists_false, and_false, or_false, iff_false]
    intro h; cases h
  | num a =>
    cases y with
    | nan =>
      simp only [sub_nan, Special.abs, reduceCtorEq, false_and, and_false, exists_false, or_false, iff_false]
      intro h; cases h
    | num b =>
      simp only [Special.abs, sub, neg, add, min_num, mul, ← sub_eq_add_neg, reduceCtorEq, false_and,
        exists_false, and_false, or_false]
      constructor
      · intro h; cases h with | numbers _ _ h => exact ⟨a, b, rfl, rfl, h⟩
      · rintro ⟨a', b', h1, h2, h3⟩
        simp only [num.injEq] at h1 h2
        subst h1 h2
        exact .numbers _ _ h3
    | inf t =>
      simp only [Special.abs, sub, neg, add, reduceCtorEq, false_and, and_false, exists_false, or_false,
        iff_false]
      have : Special.min (num |a|) (inf false) = num |a| := by simp [Special.min, Special.lt, gt]
      rw [this]
      intro h; simp only [mul] at h; cases h
  | inf s =>
    cases y with
    | nan =>
      simp only [sub_nan, Special.abs, reduceCtorEq, false_and, and_false, exists_false, or_false, iff_false]
      intro h; cases h
    | num b =>
      simp only [Special.abs, sub, neg, add, reduceCtorEq, false_and, and_false, exists_false, or_false,
        iff_false]
      have : Special.min (inf false) (num |b|) = num |b| := by simp [Special.min, Special.lt, gt]
      rw [this]
      intro h; simp only [mul] at h; cases h
    | inf t =>
      have hm : Special.min (inf false) (inf false) = inf false := by simp [Special.min, Special.lt, gt]
      simp only [reduceCtorEq, false_and, exists_false, false_or, Special.abs, hm, inf.injEq,
        exists_eq_left', sub, neg, add]
      by_cases hst : s = !t
      · subst hst
        simp only [if_true, Special.abs, Bool.not_not, and_true, mul, Ext.sign]
        rcases lt_trichotomy p 0 with hp | hp | hp
        · rw [if_neg hp.ne, if_neg hp.ne]
          simp only [hp, decide_true, Bool.false_xor, not_lt.2 hp.le, iff_false]
          intro h; cases h
        · rw [if_pos hp]
          simp only [hp, lt_irrefl, iff_false]
          intro h; cases h
        · rw [if_neg hp.ne', if_neg hp.ne']
          simp only [not_lt.2 hp.le, decide_false, Bool.false_xor, hp, iff_true]
          exact .same _
      · have : ¬ t = !s := by intro h; apply hst; simp [h]
        simp only [hst, this, if_false, Special.abs, and_false, iff_false]
        intro h; cases h

end C130

/-- **C130.** With a precision that is a number, `isApprox` holds for two numbers that are close, and never
if exactly one of the values is a number or one of them is NaN; `isApproxOrLessThan` is the order or that.

Missing from the full statement: two infinities (`C130_approx_infinities`), where `isApprox` is wrong. -/
theorem C130_approx_partial (x y : Ext) (p : ℝ)
    (h : ¬ ((∃ s, x = inf s) ∧ ∃ s, y = inf s)) :
    (Special.isApprox x y (num p) = true ↔
      ∃ a b, x = num a ∧ y = num b ∧ |a - b| ≤ min |a| |b| * p) ∧
    (Special.isApproxOrLessThan x y (num p) = true ↔
      AtMost x y ∨ ∃ a b, x = num a ∧ y = num b ∧ |a - b| ≤ min |a| |b| * p) := by
  have h1 : Special.isApprox x y (num p) = true ↔
      ∃ a b, x = num a ∧ y = num b ∧ |a - b| ≤ min |a| |b| * p := by
    rw [C130.approx_iff]
    constructor
    · rintro (h' | ⟨-, s, h1, h2⟩)
      · exact h'
      · exact absurd ⟨⟨s, h1⟩, ⟨_, h2⟩⟩ h
    · exact Or.inl
  refine ⟨h1, ?_⟩
  unfold Special.isApproxOrLessThan
  rw [Bool.or_eq_true, le_iff, h1]

/-- 100 and 101 are close up to 2 %, 100 and NaN are not. -/
example : Special.isApprox (num 100) (num 101) (num (1 / 50)) = true ∧
    Special.isApprox (num 100) nan (num (1 / 50)) ≠ true := by
  refine ⟨(C130_approx_partial _ _ _ (by simp)).1.2 ⟨100, 101, rfl, rfl, ?_⟩, fun h => ?_⟩
  · norm_num [abs_of_pos, abs_of_neg]
  · obtain ⟨a, b, -, h, -⟩ := (C130_approx_partial _ _ _ (by simp)).1.1 h
    cases h

/-- **C130.** What is said of two infinities: with a positive precision those of opposite sign are
approximately equal; an infinity is not approximately equal to itself. -/
theorem C130_approx_infinities (s t : Bool) (p : ℝ) :
    Special.isApprox (inf s) (inf t) (num p) = true ↔ s ≠ t ∧ 0 < p := by
  rw [C130.approx_iff]
  cases s <;> cases t <;> simp

/-- **C130 fails**: with the default precision of `double` plus and minus infinity are approximately equal,
in both orders, and neither is approximately equal to itself. -/
theorem C130_fails_infinities (s : Bool) :
    Special.isApprox (inf s) (inf !s) (num (1 / 1000000000000)) = true ∧
    Special.isApproxOrLessThan (inf false) (inf true) (num (1 / 1000000000000)) = true ∧
    Special.isApprox (inf s) (inf s) (num (1 / 1000000000000)) = false := by
  refine ⟨(C130_approx_infinities _ _ _).2 ⟨by cases s <;> simp, by norm_num⟩, ?_, ?_⟩
  · unfold Special.isApproxOrLessThan
    rw [Bool.or_eq_true]
    exact Or.inr ((C130_approx_infinities _ _ _).2 ⟨by simp, by norm_num⟩)
  · rw [← Bool.not_eq_true, C130_approx_infinities]
    simp

/-- **C130.** An integer and a `double`, with a precision that is a number: as for two numbers, with the
default precision instead of 0; never with NaN or an infinity. -/
theorem C130_approx_integer (dummy : ℝ) (x : Int) (y : Ext) (p : ℝ) :
    (Special.isApproxIntFloat dummy x y (num p) = true ↔
      ∃ b, y = num b ∧ |(x : ℝ) - b| ≤ min |(x : ℝ)| |b| * (if p = 0 then dummy else p)) ∧
    (Special.isApproxOrLessThanInt x y = true ↔ AtMost (num x) y) := by
  have hp : (if eq (num p) (num 0) then num dummy else num p) = num (if p = 0 then dummy else p) := by
    by_cases h : p = 0 <;> simp [eq, h]
  refine ⟨?_, le_iff _ _⟩
  have : Special.isApproxIntFloat dummy x y (num p) =
      Special.isApprox (num x) y (num (if p = 0 then dummy else p)) := by
    unfold Special.isApproxIntFloat
    simp only [hp]
    rfl
  rw [this, C130.approx_iff]
  constructor
  · rintro (⟨a, b, h1, h2, h3⟩ | ⟨-, s, h1, -⟩)
    · simp only [num.injEq] at h1; subst h1; exact ⟨b, h2, h3⟩
    · cases h1
  · rintro ⟨b, h2, h3⟩; exact Or.inl ⟨x, b, rfl, h2, h3⟩

example : Special.isApproxIntFloat (1 / 1000) 5 (inf true) (num 0) ≠ true := fun h => by
  obtain ⟨b, h, -⟩ := (C130_approx_integer _ _ _ _).1.1 h
  cases h

/-- **C130.** `wrap_angle` of a number is a number, the one of C51; of NaN and of an infinity it is NaN. -/
theorem C130_wrap (a : ℝ) (e : Ext) :
    Special.wrapAngle (num a) = num (Angle.wrapAngle a) ∧ (¬ Numeric e → Special.wrapAngle e = nan) :=
  ⟨wrap_num a, wrap_bad e⟩

example : Special.wrapAngle (inf true) = nan := (C130_wrap 0 _).2 (by simp [Numeric])

/-- **C130.** On numbers the operations of `Angle` are those of C51. -/
theorem C130_angle_numbers (v x : ℝ) :
    applyAngle (num v) (.assign (num x)) = num (Angle.ofReal x) ∧
    applyAngle (num v) (.degrees (num x)) = num (Angle.ofDegrees x) ∧
    applyAngle (num v) (.addAssign (num x)) = num (Angle.addAssign v x) ∧
    applyAngle (num v) (.add (num x)) = num (Angle.add v x) ∧
    applyAngle (num v) (.subAssign (num x)) = num (Angle.subAssign v x) ∧
    applyAngle (num v) (.sub (num x)) = num (Angle.sub v x) ∧
    applyAngle (num v) (.mulAssign (num x)) = num (Angle.scaleAssign v x) ∧
    applyAngle (num v) (.mul (num x)) = num (Angle.scale v x) := by
  simp [applyAngle, wrap_num, Ext.add, Ext.sub, neg, Ext.mul, Angle.ofReal, Angle.ofDegrees,
    Angle.addAssign, Angle.add, Angle.subAssign, Angle.sub, Angle.scaleAssign, Angle.scale,
    Angle.degreesToRadians, sub_eq_add_neg]

/-- **C130.** After any history of operations on an `Angle`, with operands of every kind, its value is NaN or
a number in [-π, π]; and it is a number exactly if all operands since the last assignment, that one included,
have been numbers.  So an angle is never infinite, NaN stays until the next assignment, and no
earlier than that. -/
theorem C130_angle (ops : List AngleOp) :
    ((∀ op ∈ sinceAssigned ops, Numeric (operand op)) →
      ∃ r, runAngle ops = num r ∧ -Real.pi ≤ r ∧ r ≤ Real.pi) ∧
    ((∃ op ∈ sinceAssigned ops, ¬ Numeric (operand op)) → runAngle ops = nan) := by
  constructor
  · intro h
    obtain ⟨r, hr⟩ := (finite_iff _).1 ((run_finite ops).2 h)
    obtain ⟨e, he⟩ := run_wraps ops
    have hn : Numeric e := by
      rw [← wrap_finite, ← he, hr]; trivial
    obtain ⟨a, rfl⟩ := (finite_iff e).1 hn
    rw [wrap_num] at he
    have := C51_wrap a
    exact ⟨_, he, this.1, this.2.1⟩
  · rintro ⟨op, hop, hbad⟩
    exact run_bad ops fun h => hbad ((run_finite ops).1 h op hop)

/-- NaN is gone after an assignment, and an infinite operand makes NaN again. -/
example :
    (∃ r, runAngle [.addAssign nan, .assign (num 1), .mul (num 9)] = num r ∧ -Real.pi ≤ r ∧ r ≤ Real.pi) ∧
    runAngle [.assign (num 1), .sub (inf true), .mul (num 0)] = nan := by
  refine ⟨(C130_angle _).1 ?_, (C130_angle _).2 ⟨.sub (inf true), ?_, ?_⟩⟩
  · simp [sinceAssigned, operand, Numeric]
  · simp [sinceAssigned]
  · simp [operand, Numeric]

/-- **C130.** After any history of pushes and clears, with values of every kind and whatever was in memory,
size, mean and variance are those of the values pushed since the last clear: of numbers the average and the
sample variance; once a value was not a number, the mean is that value and from the next push on NaN, and
the variance of two or more values is NaN. -/
theorem C130_statistics (garbage : Stats) (ops : List StatsOp) :
    Special.size (runStats garbage ops) = num (pushed ops).length ∧
    Special.mean (runStats garbage ops) = meanOf (pushed ops) ∧
    Special.variance (runStats garbage ops) = varianceOf (pushed ops) := by
  have h := run_describes garbage ops
  generalize pushed ops = l at *
  generalize runStats garbage ops = s at *
  refine ⟨by simp [Special.size, h.count], ?_, ?_⟩
  · unfold Special.mean
    rw [h.count]
    split
    next hp => exact (h.some (List.length_pos_iff.1 hp)).1
    next hp =>
      have : l = [] := List.length_eq_zero_iff.1 (by omega)
      subst this; rw [meanOf_finite (by simp)]; simp [average, numbers]
  · unfold Special.variance varianceOf
    rw [h.count]
    split
    next hp =>
      have hp' : ((l.length : ℝ) - 1) ≠ 0 := by
        have : (1 : ℝ) < l.length := by exact_mod_cast hp
        linarith
      rw [if_neg (by omega)]
      by_cases hf : ∀ e ∈ l, Numeric e
      · rw [if_pos hf, h.more hp hf]
        have hlen := numbers_length l hf
        unfold sampleVariance
        rw [if_neg (by omega), hlen]
        simp [div, hp']
      · rw [if_neg hf, h.bad hp hf]
        simp [div]
    next hp => rw [if_pos (by omega)]

/-- A clear forgets NaN: NaN, clear, 1, 2, 6 has mean 3. -/
example (g : Stats) :
    Special.mean (runStats g [.push nan, .clear, .push (num 1), .push (num 2), .push (num 6)]) = num 3 := by
  rw [(C130_statistics g _).2.1]
  have : pushed [.push nan, .clear, .push (num 1), .push (num 2), .push (num 6)] = [num 1, num 2, num 6] := rfl
  rw [this, meanOf_finite (by simp [Numeric])]
  have hn : numbers [num 1, num 2, num 6] = [1, 2, 6] := by simp [numbers]
  rw [hn]
  norm_num [average]

/-- **C130 fails**: the mean of an infinity and a number is the infinity if the infinity comes last, and NaN
if it comes first; the sum divided by the number of values is infinite in both cases. -/
theorem C130_fails_mean (g : Stats) (s : Bool) (x : ℝ) :
    Special.mean (runStats g [.push (num x), .push (inf s)]) = inf s ∧
    Special.mean (runStats g [.push (inf s), .push (num x)]) = nan ∧
    div false (add (inf s) (num x)) (num 2) = inf s ∧
    div false (add (num x) (inf s)) (num 2) = inf s := by
  refine ⟨?_, ?_, ?_, ?_⟩
  · rw [(C130_statistics g _).2.1]
    exact meanOf_last (l := [num x]) (by simp [Numeric]) (inf s) (by simp [Numeric])
  · rw [(C130_statistics g _).2.1]
    exact meanOf_bad (l := [inf s]) (by simp [Numeric]) (num x)
  · have : ¬ (2 : ℝ) < 0 := by norm_num
    simp [add, div, Ext.sign, this]
  · have : ¬ (2 : ℝ) < 0 := by norm_num
    simp [add, div, Ext.sign, this]

/-- **C130 fails**: the variance does not show a single value that is NaN. -/
theorem C130_fails_variance (g : Stats) : Special.variance (runStats g [.push nan]) = num 0 := by
  rw [(C130_statistics g _).2.2]
  simp [varianceOf, pushed]

/-- **C130.** The distance to a trajectory of two or more positions, for coordinates of every kind: legs with
an end that is not a pair of numbers are left out.  If the position is a pair of numbers and there is another
leg, the distance is the least distance to a point of such a leg; otherwise it is infinite. -/
theorem C130_distance (mode : Mode) (p : Position) (trajectory : List Position) (h : 2 ≤ trajectory.length) :
    (∀ a : ℝ × ℝ, p = (num a.1, num a.2) → (∃ r, OnWholeLeg trajectory r) →
      ∃ d, Special.distance mode p trajectory = .ok (num d) ∧
        IsLeast {e | ∃ r, OnWholeLeg trajectory r ∧ e = Real.sqrt (sqDist a r)} d) ∧
    ((¬ (Numeric p.1 ∧ Numeric p.2) ∨ ¬ ∃ r, OnWholeLeg trajectory r) →
      Special.distance mode p trajectory = .ok (inf false)) := by
  match trajectory, h with
  | q :: q' :: rest, _ =>
    have hd : Special.distance mode p (q :: q' :: rest) =
      .ok (sqrt (distanceLoop p q (q' :: rest) (inf false))) := rfl
    rw [hd]
    constructor
    · rintro a rfl ⟨r, hr⟩
      rcases loop_num a q (q' :: rest) (inf false) (Or.inl rfl) with ⟨-, h⟩ | ⟨d, h, hl⟩
      · have : sqDist a r ∈ Candidates a (inf false) (q :: q' :: rest) := Or.inr ⟨r, hr, rfl⟩
        rw [h] at this; exact this.elim
      · rw [h]
        have h0 : 0 ≤ d := by
          rcases hl.1 with h | ⟨r, -, h⟩
          · cases h
          · rw [h]; unfold sqDist; positivity
        refine ⟨Real.sqrt d, by simp [sqrt, not_lt.2 h0], ?_, ?_⟩
        · rcases hl.1 with h | ⟨r, hr, h⟩
          · cases h
          · exact ⟨r, hr, by rw [h]⟩
        · rintro e ⟨r, hr, rfl⟩
          exact Real.sqrt_le_sqrt (hl.2 (Or.inr ⟨r, hr, rfl⟩))
    · intro h
      have : distanceLoop p q (q' :: rest) (inf false) = inf false := by
        by_cases hp : ∃ a, At p a
        · obtain ⟨a, ha⟩ := hp
          have hleg : ¬ ∃ r, OnWholeLeg (q :: q' :: rest) r := by
            rcases h with h | h
            · exact absurd ((at_iff p).1 ⟨a, ha⟩) h
            · exact h
          rw [show p = _ from ha]
          rcases loop_num a q (q' :: rest) (inf false) (Or.inl rfl) with ⟨h, -⟩ | ⟨d, -, hl⟩
          · exact h
          · rcases hl.1 with h | ⟨r, hr, -⟩
            · cases h
            · exact absurd ⟨r, hr⟩ hleg
        · exact loop_bad_point p hp _ _ _
      rw [this]; simp [sqrt]

/-- A whole leg is found beside a broken one: the distance from the origin to the way through (1, 0), (1, 1)
and NaN is a number. -/
example : ∃ d, Special.distance .release (num 0, num 0) [(num 1, num 0), (num 1, num 1), (nan, num 1)] =
    .ok (num d) := by
  obtain ⟨d, h, -⟩ := (C130_distance .release (num 0, num 0)
    [(num 1, num 0), (num 1, num 1), (nan, num 1)] (by simp)).1 (0, 0) rfl
    ⟨(1, 0), 0, (1, 0), (1, 1), rfl, rfl, 0, le_refl _, zero_le_one, by simp⟩
  exact ⟨d, h⟩

/-- **C130.** A trajectory of one position: the norm of the difference. -/
theorem C130_distance_single (mode : Mode) (p q : Position) (a b : ℝ × ℝ) :
    (p = (num a.1, num a.2) → q = (num b.1, num b.2) →
      Special.distance mode p [q] = .ok (num (Real.sqrt (sqDist a b)))) ∧
    ((p.1 = nan ∨ p.2 = nan ∨ q.1 = nan ∨ q.2 = nan) → Special.distance mode p [q] = .ok nan) := by
  constructor
  · rintro rfl rfl
    simp only [Special.distance, sub, neg, add, ← sub_eq_add_neg]
    rw [(C130_norms _ _ 0 nan nan nan).1]
    simp only [Math.norm2, sqDist]
    congr 3
    ring
  · intro h
    have : sub p.1 q.1 = nan ∨ sub p.2 q.2 = nan := by
      rcases h with h | h | h | h
      · left; rw [h, nan_sub]
      · right; rw [h, nan_sub]
      · left; rw [h, sub_nan]
      · right; rw [h, sub_nan]
    simp only [Special.distance]
    rw [(C130_norms 0 0 0 _ _ nan).2.2.1 this]

/-- **C130 fails**: a position that is NaN is infinitely far from every trajectory of two or more positions,
although from a trajectory of one position its distance is NaN; and a trajectory with a broken position is not
noticed: the distance to the way over NaN is the distance to the rest of the way. -/
theorem C130_fails_distance (mode : Mode) (q q' : Position) (rest : List Position) :
    Special.distance mode (nan, nan) (q :: q' :: rest) = .ok (inf false) ∧
    Special.distance mode (nan, nan) [q] = .ok nan ∧
    (∃ d, Special.distance mode (num 0, num 0) [(num 1, num 0), (num 1, num 0), (nan, nan)] = .ok (num d)) := by
  refine ⟨(C130_distance mode _ _ (by simp)).2 (Or.inl (by simp [Numeric])),
    (C130_distance_single mode _ _ (0, 0) (0, 0)).2 (Or.inl rfl), ?_⟩
  obtain ⟨d, h, -⟩ := (C130_distance mode (num 0, num 0)
    [(num 1, num 0), (num 1, num 0), (nan, nan)] (by simp)).1 (0, 0) rfl
    ⟨(1, 0), 0, (1, 0), (1, 0), rfl, rfl, 0, le_refl _, zero_le_one, by simp⟩
  exact ⟨d, h⟩

end Ecl.Props
