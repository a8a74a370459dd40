import Verif.Model.CartesianPoint
import Verif.Lemmas.CReal
import Mathlib.Analysis.SpecialFunctions.Complex.Arg
import Mathlib.Analysis.SpecialFunctions.Trigonometric.Angle

/-!
# C89: points
-/
set_option autoImplicit false
set_option linter.unusedSimpArgs false

namespace Ecl.Props
open Ecl.Cart

/-! ## `CartesianPoint<double,2>` (exact arithmetic) -/

private theorem pt_ext {p q : Pt ℝ} (h1 : p.x = q.x) (h2 : p.y = q.y) : p = q := by
  cases p; cases q; simp_all

/-- Sums and differences are inverse to each other, sums do not depend on the order, `+=` is `+`, and
multiplication distributes. -/
theorem C89_vectors (p q r : Pt ℝ) (d e : ℝ) :
    add (sub p q) q = p ∧ sub (add p q) q = p ∧ add p q = add q p ∧
      add (add p q) r = add p (add q r) ∧ addAssign p q = add p q ∧
      smul (add p q) d = add (smul p d) (smul q d) ∧ smul p (d + e) = add (smul p d) (smul p e) ∧
      smul (smul p d) e = smul p (d * e) ∧ smul p 1 = p := by
  refine ⟨?_, ?_, ?_, ?_, ?_, ?_, ?_, ?_, ?_⟩ <;> apply pt_ext <;> simp [add, sub, addAssign, smul] <;> ring

/-- Equality is that of both coordinates, and `!=` its negation. -/
theorem C89_equal {α : Type} [DecidableEq α] (p q : Pt α) :
    (eq p q = true ↔ p = q) ∧ (ne p q = true ↔ p ≠ q) := by
  cases p; cases q
  constructor
  · simp only [eq, Pt.mk.injEq]
    split <;> simp_all <;> tauto
  · simp only [ne, Pt.mk.injEq, ne_eq]
    split <;> simp_all <;> tauto

private def toC (p : Pt ℝ) : ℂ := ⟨p.x, p.y⟩

private theorem distance_eq (p q : Pt ℝ) : distance p q = ‖toC p - toC q‖ := by
  rw [Complex.norm_eq_sqrt_sq_add_sq]
  simp only [distance, toC, Complex.sub_re, Complex.sub_im]
  congr 1
  ring

private theorem norm_eq (p : Pt ℝ) : Cart.norm p = ‖toC p‖ := by
  rw [Complex.norm_eq_sqrt_sq_add_sq]
  simp only [Cart.norm, toC]
  congr 1
  ring

private theorem toC_inj {p q : Pt ℝ} (h : toC p = toC q) : p = q :=
  pt_ext (congrArg Complex.re h) (congrArg Complex.im h)

/-- The distance is the Euclidean one, thus a metric, and the norm the distance from the origin. -/
theorem C89_distance (p q r : Pt ℝ) :
    distance p q ^ 2 = (p.x - q.x) ^ 2 + (p.y - q.y) ^ 2 ∧ 0 ≤ distance p q ∧ (distance p q = 0 ↔ p = q) ∧ distance p q = distance q p ∧
      distance p r ≤ distance p q + distance q r ∧ Cart.norm p = distance p ⟨0, 0⟩ := by
  have h0 : distance p q ^ 2 = (p.x - q.x) ^ 2 + (p.y - q.y) ^ 2 := by
    unfold distance
    rw [Real.sq_sqrt (by nlinarith [sq_nonneg (p.x - q.x), sq_nonneg (p.y - q.y)])]
    ring
  refine ⟨h0, ?_⟩
  clear h0
  rw [distance_eq, distance_eq, distance_eq, distance_eq, norm_eq, distance_eq]
  refine ⟨norm_nonneg _, ?_, norm_sub_rev _ _, ?_, ?_⟩
  · rw [norm_eq_zero, sub_eq_zero]
    exact ⟨toC_inj, fun h => h ▸ rfl⟩
  · have := norm_add_le (toC p - toC q) (toC q - toC r)
    rwa [sub_add_sub_cancel] at this
  · rw [show toC ⟨0, 0⟩ = 0 from rfl, sub_zero]

private theorem toC_rotate (t : ℝ) (p : Pt ℝ) :
    toC (rotate t p) = toC p * (Complex.cos t + Complex.sin t * Complex.I) := by
  apply Complex.ext
  · simp [toC, rotate, Complex.cos_ofReal_re, Complex.sin_ofReal_re, Complex.cos_ofReal_im,
      Complex.sin_ofReal_im]
  · simp [toC, rotate, Complex.cos_ofReal_re, Complex.sin_ofReal_re, Complex.cos_ofReal_im,
      Complex.sin_ofReal_im]

/-- Rotations keep all distances, add up, and add to the angle of a point. -/
theorem C89_rotate (s t : ℝ) (p q : Pt ℝ) :
    distance (rotate t p) (rotate t q) = distance p q ∧ rotate s (rotate t p) = rotate (s + t) p ∧
      rotate 0 p = p ∧
      (p ≠ ⟨0, 0⟩ → -Real.pi < angle (rotate t p) ∧ angle (rotate t p) ≤ Real.pi ∧
        ∃ k : ℤ, angle (rotate t p) = angle p + t + k * (2 * Real.pi)) := by
  have hn : ‖Complex.cos t + Complex.sin t * Complex.I‖ = 1 := Complex.norm_cos_add_sin_mul_I t
  refine ⟨?_, ?_, ?_, fun hp => ⟨Complex.neg_pi_lt_arg _, Complex.arg_le_pi _, ?_⟩⟩
  · rw [distance_eq, distance_eq, toC_rotate, toC_rotate, ← sub_mul, norm_mul, hn, mul_one]
  · apply pt_ext <;> simp only [rotate, Real.cos_add, Real.sin_add] <;> ring
  · apply pt_ext <;> simp [rotate]
  · have hz : toC p ≠ 0 := fun h => hp (toC_inj (by rw [h]; rfl))
    have hu : Complex.cos t + Complex.sin t * Complex.I ≠ 0 := fun h => by rw [h] at hn; simp at hn
    have h1 := Complex.arg_mul_coe_angle hz hu
    have h2 := Complex.arg_cos_add_sin_mul_I_coe_angle (t : Real.Angle)
    rw [Real.Angle.cos_coe, Real.Angle.sin_coe, Complex.ofReal_cos, Complex.ofReal_sin] at h2
    rw [h2, ← toC_rotate, ← Real.Angle.coe_add] at h1
    obtain ⟨k, hk⟩ := Real.Angle.angle_eq_iff_two_pi_dvd_sub.1 h1
    refine ⟨k, ?_⟩
    show Complex.arg (toC (rotate t p)) = Complex.arg (toC p) + t + k * (2 * Real.pi)
    linarith

example : (⟨3, -4⟩ : Pt ℝ) ≠ ⟨0, 0⟩ := by simp

/-- Normalising gives the point of the same direction with length 1 and returns the old length; the
origin becomes (1,0). -/
theorem C89_normalize (p : Pt ℝ) :
    (normalize p).2 = Cart.norm p ∧ Cart.norm (normalize p).1 = 1 ∧
      (p ≠ ⟨0, 0⟩ → smul (normalize p).1 (normalize p).2 = p) ∧ (p = ⟨0, 0⟩ → (normalize p).1 = ⟨1, 0⟩) := by
  have h0 : Cart.norm p = 0 ↔ p = ⟨0, 0⟩ := by
    rw [norm_eq, norm_eq_zero]
    exact ⟨fun h => toC_inj (h.trans rfl), fun h => h ▸ rfl⟩
  unfold Cart.normalize
  split
  · rename_i h
    exact ⟨rfl, by simp [Cart.norm], fun hp => absurd (h0.1 h) hp, fun _ => rfl⟩
  · rename_i h
    refine ⟨rfl, ?_, fun _ => ?_, fun hp => absurd (h0.2 hp) h⟩
    · have hs : Cart.norm p ^ 2 = p.x * p.x + p.y * p.y := Real.sq_sqrt (by nlinarith [sq_nonneg p.x, sq_nonneg p.y])
      unfold Cart.norm
      simp only
      rw [Real.sqrt_eq_one, show √(p.x * p.x + p.y * p.y) = Cart.norm p from rfl]
      field_simp
      linarith
    · apply pt_ext <;> simp only [smul] <;> field_simp

/-! ## `CartesianPoint<int,2>` -/

private theorem castInt_sqrt (n : Nat) (h : n < 2147483648) : castInt √((n : Int) : ℝ) = .ok (Nat.sqrt n) := by
  have h1 : truncate √((n : Int) : ℝ) = Nat.sqrt n := by
    rw [truncate_of_nonneg (Real.sqrt_nonneg _), Int.floor_eq_iff]
    have e : ((n : Int) : ℝ) = (n : ℝ) := by simp
    rw [e]
    constructor
    · refine Real.le_sqrt_of_sq_le ?_
      exact_mod_cast Nat.sqrt_le' n
    · rw [Real.sqrt_lt' (by positivity)]
      exact_mod_cast Nat.lt_succ_sqrt' n
  unfold castInt
  rw [h1, if_pos]
  have := Nat.sqrt_le_self n
  unfold InInt intMin intMax
  omega

private theorem sqrt_is {n r : Nat} (h1 : r * r ≤ n) (h2 : n < (r + 1) * (r + 1)) : Nat.sqrt n = r :=
  (Nat.eq_sqrt.2 ⟨h1, h2⟩).symm

private theorem intValue_ok {i : Int} (h1 : -2147483648 ≤ i) (h2 : i ≤ 2147483647) :
    intValue i = .ok i := if_pos ⟨h1, h2⟩

private theorem sumSquares_ok {a b : Int} (ha : |a| ≤ 32767) (hb : |b| ≤ 32767) :
    sumSquares a b = .ok (a * a + b * b) := by
  rw [abs_le] at ha hb
  have h1 : a * a ≤ 32767 * 32767 := by nlinarith
  have h2 : b * b ≤ 32767 * 32767 := by nlinarith
  have h3 : 0 ≤ a * a := mul_self_nonneg a
  have h4 : 0 ≤ b * b := mul_self_nonneg b
  unfold sumSquares
  rw [intValue_ok (by omega) (by omega), Outcome.bind_ok, intValue_ok (by omega) (by omega),
    Outcome.bind_ok, intValue_ok (by omega) (by omega)]

/-- With integers, the distance of points that are near enough is cut off to the next integer. -/
theorem C89_distance_int_partial (p q : Pt Int) (hx : |p.x - q.x| ≤ 32767) (hy : |p.y - q.y| ≤ 32767) :
    ∃ d : Int, distanceInt p q = .ok d ∧ (d : ℝ) ≤ distance ⟨p.x, p.y⟩ ⟨q.x, q.y⟩ ∧
      distance ⟨p.x, p.y⟩ ⟨q.x, q.y⟩ < d + 1 := by
  have h1 := sumSquares_ok hx hy
  have hx' := abs_le.1 hx
  have hy' := abs_le.1 hy
  have h3 : 0 ≤ (p.x - q.x) * (p.x - q.x) := mul_self_nonneg _
  have h4 : 0 ≤ (p.y - q.y) * (p.y - q.y) := mul_self_nonneg _
  have h5 : (p.x - q.x) * (p.x - q.x) ≤ 32767 * 32767 := by nlinarith
  have h6 : (p.y - q.y) * (p.y - q.y) ≤ 32767 * 32767 := by nlinarith
  obtain ⟨n, hn⟩ : ∃ n : Nat, (p.x - q.x) * (p.x - q.x) + (p.y - q.y) * (p.y - q.y) = n :=
    ⟨_, (Int.toNat_of_nonneg (by omega)).symm⟩
  rw [hn] at h1
  have hd : distance ⟨p.x, p.y⟩ ⟨q.x, q.y⟩ = √(n : ℝ) := by
    unfold distance
    congr 1
    have : (((p.x - q.x) * (p.x - q.x) + (p.y - q.y) * (p.y - q.y) : Int) : ℝ) = ((n : Int) : ℝ) := by rw [hn]
    push_cast at this
    exact this
  refine ⟨Nat.sqrt n, ?_, ?_, ?_⟩
  · unfold distanceInt
    rw [intValue_ok (by omega) (by omega), Outcome.bind_ok, intValue_ok (by omega) (by omega),
      Outcome.bind_ok, h1, Outcome.bind_ok, castInt_sqrt n (by omega)]
  · rw [hd]
    refine Real.le_sqrt_of_sq_le ?_
    exact_mod_cast Nat.sqrt_le' n
  · rw [hd, Real.sqrt_lt' (by positivity)]
    exact_mod_cast Nat.lt_succ_sqrt' n

example : |(3 : Int) - (-7)| ≤ 32767 ∧ |(20000 : Int) - (-7)| ≤ 32767 := by decide

private theorem dist_ok {a b c d : Int} {n : Nat} (hx : |a - c| ≤ 32767) (hy : |b - d| ≤ 32767)
    (hn : (a - c) * (a - c) + (b - d) * (b - d) = n) (hs : n < 2147483648) :
    distanceInt ⟨a, b⟩ ⟨c, d⟩ = .ok (Nat.sqrt n) := by
  have h1 := sumSquares_ok hx hy
  rw [abs_le] at hx hy
  rw [hn] at h1
  unfold distanceInt
  simp only
  rw [intValue_ok (by omega) (by omega), Outcome.bind_ok, intValue_ok (by omega) (by omega),
    Outcome.bind_ok, h1, Outcome.bind_ok, castInt_sqrt n hs]

/-- With integers, a detour can be shorter: the triangle inequality fails. -/
theorem C89_fails_triangle_int : ∃ (p q r : Pt Int) (a b c : Int), distanceInt p q = .ok a ∧
    distanceInt q r = .ok b ∧ distanceInt p r = .ok c ∧ a + b < c := by
  refine ⟨⟨0, 0⟩, ⟨1, 1⟩, ⟨3, 3⟩, (Nat.sqrt 2 : Nat), (Nat.sqrt 8 : Nat), (Nat.sqrt 18 : Nat),
    dist_ok (by decide) (by decide) (by norm_num) (by norm_num),
    dist_ok (by decide) (by decide) (by norm_num) (by norm_num),
    dist_ok (by decide) (by decide) (by norm_num) (by norm_num), ?_⟩
  rw [sqrt_is (r := 1) (by norm_num) (by norm_num), sqrt_is (r := 2) (by norm_num) (by norm_num),
    sqrt_is (r := 4) (by norm_num) (by norm_num)]
  norm_num

/-- With integers, points that are further apart than 46340 have no distance. -/
theorem C89_fails_distance_int : distanceInt ⟨46341, 0⟩ ⟨0, 0⟩ = .ub := by
  have h : sumSquares 46341 0 = .ub := by
    unfold sumSquares
    rw [show intValue (46341 * 46341) = .ub by decide]
    rfl
  unfold distanceInt
  simp only
  rw [show intValue (46341 - 0) = .ok 46341 by decide, Outcome.bind_ok,
    show intValue (0 - 0) = .ok 0 by decide, Outcome.bind_ok, h]
  rfl

private theorem castInt_of {x : ℝ} {n : Int} (h : truncate x = n) (h1 : -2147483648 ≤ n)
    (h2 : n ≤ 2147483647) : castInt x = .ok n := by
  unfold castInt
  rw [h, if_pos ⟨h1, h2⟩]

private theorem truncate_zero_of {x : ℝ} (h0 : 0 ≤ x) (h1 : x < 1) : truncate x = 0 := by
  rw [truncate_of_nonneg h0]
  exact Int.floor_eq_zero_iff.2 ⟨h0, h1⟩

/-- With integers, normalising (3,4) gives the origin, and (1,1) is left as it is. -/
theorem C89_fails_normalize_int :
    normalizeInt ⟨3, 4⟩ = .ok (⟨0, 0⟩, 5) ∧ normalizeInt ⟨1, 1⟩ = .ok (⟨1, 1⟩, 1) := by
  constructor
  · have h : castInt √((25 : Int) : ℝ) = .ok 5 := by
      have := castInt_sqrt 25 (by norm_num)
      rw [sqrt_is (r := 5) (by norm_num) (by norm_num)] at this
      exact_mod_cast this
    unfold normalizeInt
    rw [show sumSquares (⟨3, 4⟩ : Pt Int).x (⟨3, 4⟩ : Pt Int).y = .ok 25 by decide, Outcome.bind_ok, h,
      Outcome.bind_ok, if_neg (by decide)]
    rw [castInt_of (truncate_zero_of (by norm_num) (by norm_num)) (by norm_num) (by norm_num),
      Outcome.bind_ok,
      castInt_of (truncate_zero_of (by norm_num) (by norm_num)) (by norm_num) (by norm_num)]
    rfl
  · have h : castInt √((2 : Int) : ℝ) = .ok 1 := by
      have := castInt_sqrt 2 (by norm_num)
      rw [sqrt_is (r := 1) (by norm_num) (by norm_num)] at this
      exact_mod_cast this
    have h1 : castInt (((1 : Int) : ℝ) * (1 / ((1 : Int) : ℝ))) = .ok 1 := by
      refine castInt_of ?_ (by norm_num) (by norm_num)
      rw [show ((1 : Int) : ℝ) * (1 / ((1 : Int) : ℝ)) = ((1 : Int) : ℝ) by norm_num]
      exact truncate_int 1
    unfold normalizeInt
    rw [show sumSquares (⟨1, 1⟩ : Pt Int).x (⟨1, 1⟩ : Pt Int).y = .ok 2 by decide, Outcome.bind_ok, h,
      Outcome.bind_ok, if_neg (by decide)]
    simp only
    rw [h1]
    rfl

/-- With integers, rotating (1,0) by an eighth of a turn gives the origin. -/
theorem C89_fails_rotate_int : rotateInt (Real.pi / 4) ⟨1, 0⟩ = .ok ⟨0, 0⟩ := by
  have h2 : √2 < 2 := by rw [Real.sqrt_lt' (by norm_num)]; norm_num
  have h0 : 0 ≤ √2 := Real.sqrt_nonneg 2
  unfold rotateInt
  simp only [Real.cos_pi_div_four, Real.sin_pi_div_four]
  rw [castInt_of (truncate_zero_of (by push_cast; linarith) (by push_cast; linarith)) (by norm_num) (by norm_num),
    Outcome.bind_ok,
    castInt_of (truncate_zero_of (by push_cast; linarith) (by push_cast; linarith)) (by norm_num) (by norm_num)]
  rfl

/-! ## Access -/

/-- An index in range gives the coordinate in every build; one out of range throws in debug builds. -/
theorem C89_index (m : Mode) {α : Type} (elements : List α) (i : Nat) :
    (∀ h : i < elements.length, at' m elements i = .ok elements[i]) ∧
      (elements.length ≤ i → at' .debug elements i = .throw .outOfRange) := by
  constructor
  · intro h
    simp [at', h]
  · intro h
    simp [at', h]

example : at' .release [1, 2, 3] 2 = .ok 3 ∧ at' .debug [1, 2, 3] 3 = .throw .outOfRange := by decide

/-- In release builds an index out of range is undefined. -/
theorem C89_fails_index {α : Type} (elements : List α) (i : Nat) (h : elements.length ≤ i) :
    at' .release elements i = .ub := by
  simp [at', h]

/-! ## Homogeneous points -/

/-- A homogeneous point of three coordinates, or in debug builds of any four numbers, has the fourth
coordinate 1 and keeps it when the others are set. -/
theorem C89_homogeneous_partial (p : Hom)
    (hp : (∃ x y z, p = .ofCoords x y z) ∨ (∃ v, p = .ofValue v) ∨
      ∃ x y z w, Hom.ofVector .debug x y z w = .ok p)
    (ops : List HomOp) (hops : ∀ o ∈ ops, ∀ x y z w, o = .fill x y z w → w = 1) :
    (ops.foldl Hom.step p).w = 1 := by
  have h1 : p.w = 1 := by
    rcases hp with ⟨x, y, z, rfl⟩ | ⟨v, rfl⟩ | ⟨x, y, z, w, h⟩
    · rfl
    · rfl
    · unfold Hom.ofVector assertThrow at h
      by_cases hw : w = 1
      · simp [hw] at h
        rw [← h]
      · simp [hw] at h
  clear hp
  induction ops generalizing p with
  | nil => exact h1
  | cons o ops ih =>
    rw [List.foldl_cons]
    refine ih _ (fun o ho => hops o (by simp [ho])) ?_
    cases o with
    | setX => exact h1
    | setY => exact h1
    | setZ => exact h1
    | fill x y z w => exact hops _ (by simp) x y z w rfl

example : Hom.ofVector .debug 1 2 3 1 = .ok ⟨1, 2, 3, 1⟩ := by simp [Hom.ofVector, assertThrow]

/-- In release builds any four numbers are taken, and in every build the fourth can be changed. -/
theorem C89_fails_homogeneous :
    Hom.ofVector .release 1 2 3 0 = .ok ⟨1, 2, 3, 0⟩ ∧
      ((Hom.ofCoords 1 2 3).step (.fill 1 2 3 0)).w = 0 := by
  refine ⟨?_, rfl⟩
  simp [Hom.ofVector, assertThrow]

end Ecl.Props
