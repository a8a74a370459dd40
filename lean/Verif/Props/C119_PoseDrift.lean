import Verif.Lemmas.PoseFloat
import Verif.Lemmas.Rounding
import Verif.Props.C109_AngleFloat

/-! # C119: many poses composed in floating point arithmetic -/
set_option autoImplicit false

namespace Ecl.Props
open Ecl.Spec Ecl.Spec.Odometry Ecl.PoseFloat Ecl.Pose
open Ecl.AngleFloat (wrapD wrapS)
open Ecl.AngleFloat.Spec (Near)

namespace C119

theorem unit_pos (p : ℕ) : (0 : ℝ) < 1 / 2 ^ p := by positivity

theorem unit_small {p : ℕ} (hp : 10 ≤ p) : (1 : ℝ) / 2 ^ p ≤ 1 / 1024 := by
  have : (2 : ℝ) ^ 10 ≤ 2 ^ p := pow_le_pow_right₀ (by norm_num) hp
  apply one_div_le_one_div_of_le (by norm_num)
  norm_num at this ⊢
  exact this

theorem rel {p : ℕ} {fl : ℝ → ℝ} (hp : 10 ≤ p) (hfl : Rounds p fl) : Rel (1 / 2 ^ p) fl :=
  ⟨(unit_pos p).le, unit_small hp, fun x => by
    have := hfl.relative (by omega) x
    rwa [mul_one_div]⟩

theorem travel_snoc (ms : List Place) (m : Place) : travel (ms ++ [m]) = go (travel ms) m := by
  simp [travel]

theorem way_snoc (ms : List Place) (m : Place) : way (ms ++ [m]) = way ms + ‖(⟨m.x, m.y⟩ : ℂ)‖ := by
  simp [way, norm_eq_sqrt]

/-- Fewer motions, less rounding. -/
theorem less {p n : ℕ} (h : ((n + 1 : ℕ) : ℝ) / 2 ^ p ≤ 1 / 1024) : (n : ℝ) / 2 ^ p ≤ 1 / 1024 := by
  refine le_trans ?_ h
  gcongr
  omega

theorem drift {p : ℕ} {fl cosF sinF : ℝ → ℝ} (hp : 10 ≤ p) (hfl : Rounds p fl) (ht : Trig p cosF sinF)
    (ms : List Place) (hn : (ms.length : ℝ) / 2 ^ p ≤ 1 / 1024) :
    Drift (1 / 2 ^ p) ms.length (way ms)
      (ms.foldl (fun q m => mulF fl q (makeF cosF sinF m.x m.y m.h)) PoseM.identity) (travel ms) := by
  induction ms using List.reverseRecOn with
  | nil =>
    have h0 : (⟨(1 : ℝ), 0⟩ : ℂ) = 1 := rfl
    have h1 : (⟨(0 : ℝ), 1⟩ : ℂ) = Complex.I := rfl
    have h2 : (⟨(0 : ℝ), 0⟩ : ℂ) = 0 := rfl
    constructor <;> simp [travel, way, PoseM.identity, h0, h1, h2]
  | append_singleton ms m ih =>
    rw [List.length_append, List.length_singleton] at hn
    rw [travel_snoc, way_snoc, List.foldl_append, List.length_append, List.length_singleton,
      List.foldl_cons, List.foldl_nil]
    have h := ih (less hn)
    push_cast
    obtain ⟨hc, hs⟩ := ht m.h
    refine h.step (rel hp hfl) (Nat.cast_nonneg _) (by rw [mul_one_div]; exact less hn)
      (r := rotationF cosF sinF m.h) m hc ?_ hs hc
    simp only [rotationF]
    rw [show -sinF m.h + Real.sin m.h = -(sinF m.h - Real.sin m.h) by ring, abs_neg]
    exact hs

theorem lag {p : ℕ} {fl cosF sinF wrap : ℝ → ℝ} (hp : 10 ≤ p) (hfl : Rounds p fl) (ht : Trig p cosF sinF)
    (hw : Wraps (1 / 2 ^ p) wrap) (ms : List Place) (hm : ∀ m ∈ ms, |m.h| ≤ 3.15)
    (hn : (ms.length : ℝ) / 2 ^ p ≤ 1 / 1024) :
    Lag (1 / 2 ^ p) ms.length (way ms)
      (ms.foldl (fun q m => concatenateF fl cosF sinF wrap q ⟨m.x, m.y, m.h⟩) ⟨0, 0, 0⟩) (travel ms) := by
  induction ms using List.reverseRecOn with
  | nil =>
    have h2 : (⟨(0 : ℝ), 0⟩ : ℂ) = 0 := rfl
    refine ⟨⟨0, ?_⟩, ?_, ?_, ?_⟩ <;> simp [travel, way, h2]
    norm_num
  | append_singleton ms m ih =>
    rw [List.length_append, List.length_singleton] at hn
    rw [travel_snoc, way_snoc, List.foldl_append, List.length_append, List.length_singleton,
      List.foldl_cons, List.foldl_nil]
    have h := ih (fun a ha => hm a (by simp [ha])) (less hn)
    push_cast
    exact h.step (rel hp hfl) (Nat.cast_nonneg _) (by rw [mul_one_div]; exact less hn) ht hw m
      (hm m (by simp))

theorem wraps_double {fl : ℝ → ℝ} (hfl : RoundsToNearest fl) : Wraps (1 / 2 ^ 53) (wrapD fl) := by
  intro a
  have h := C109.double_range hfl a
  have h1 := C109.piD_hi
  refine ⟨abs_le.2 ⟨by linarith, by linarith⟩, ?_⟩
  have := C109.double_near hfl a
  rwa [show (|a| + 6) / 2 ^ 52 = 2 * (1 / 2 ^ 53) * (|a| + 6) by ring] at this

theorem wraps_single {fl fs : ℝ → ℝ} (hfl : RoundsToNearest fl) (hfs : RoundsToSingle fs) :
    Wraps (1 / 2 ^ 24) (wrapS fl fs) := by
  intro a
  obtain ⟨h1, h2, h3⟩ := C109_single_partial fl fs hfl hfs a
  have h4 : Ecl.AngleFloat.Spec.piS < 3.15 := by unfold Ecl.AngleFloat.Spec.piS; norm_num
  refine ⟨abs_le.2 ⟨by linarith, by linarith⟩, ?_⟩
  rwa [show (|a| + 6) / 2 ^ 23 = 2 * (1 / 2 ^ 24) * (|a| + 6) by ring] at h3

/-- Sums of two squares that are powers of four. -/
theorem four (k : ℕ) (a b : ℤ) (h : a ^ 2 + b ^ 2 = 4 ^ k) : a = 0 ∨ b = 0 := by
  induction k generalizing a b with
  | zero =>
    by_contra hc
    rw [not_or] at hc
    have h1 : 0 < a ^ 2 := by have := hc.1; positivity
    have h2 : 0 < b ^ 2 := by have := hc.2; positivity
    rw [pow_zero] at h
    omega
  | succ k ih =>
    have e : ∀ c : ℤ, c ^ 2 % 4 = 0 ∧ c % 2 = 0 ∨ c ^ 2 % 4 = 1 := by
      intro c
      rcases Int.emod_two_eq_zero_or_one c with hc | hc
      · left
        obtain ⟨d, rfl⟩ : ∃ d, c = 2 * d := ⟨c / 2, by omega⟩
        rw [mul_pow]
        exact ⟨by omega, hc⟩
      · right
        obtain ⟨d, rfl⟩ : ∃ d, c = 2 * d + 1 := ⟨c / 2, by omega⟩
        rw [show (2 * d + 1) ^ 2 = 4 * (d ^ 2 + d) + 1 by ring]
        omega
    rw [pow_succ 4 k] at h
    have ha := e a
    have hb := e b
    have h2 : a % 2 = 0 ∧ b % 2 = 0 := by
      generalize (4 : ℤ) ^ k = q at *
      omega
    obtain ⟨c, rfl⟩ : ∃ c, a = 2 * c := ⟨a / 2, by omega⟩
    obtain ⟨d, rfl⟩ : ∃ d, b = 2 * d := ⟨b / 2, by omega⟩
    have h3 : c ^ 2 + d ^ 2 = 4 ^ k := by
      have : 4 * (c ^ 2 + d ^ 2) = 4 ^ k * 4 := by rw [← h]; ring
      linarith
    rcases ih c d h3 with rfl | rfl
    · left; rfl
    · right; rfl

/-- A number of finitely many bits is a fraction with a power of two below, and as large a one as one wants. -/
theorem fraction {p : ℕ} {x : ℝ} (h : IsFloat p x) : ∃ n : ℕ, ∀ k, n ≤ k → ∃ a : ℤ, x * 2 ^ k = a := by
  obtain ⟨m, e, _, rfl⟩ := h
  refine ⟨e.natAbs, fun k hk => ⟨m * 2 ^ (e + k).toNat, ?_⟩⟩
  push_cast
  rw [mul_assoc, ← zpow_natCast (2 : ℝ) k, ← zpow_add₀ (by norm_num), ← zpow_natCast (2 : ℝ) (e + k).toNat]
  congr 2
  omega

end C119

/-- A pose with a rotation matrix, composed with any motions, in arithmetic of any precision of at least ten
bits and not more motions than the precision allows for: the entries of the matrix are those of the true
rotation up to five units in the last place per motion, and the position is the true one up to eight such units
per motion of the length of the way. -/
theorem C119_matrix (p : ℕ) (fl cosF sinF : ℝ → ℝ) (hp : 10 ≤ p) (hfl : Rounds p fl) (ht : Trig p cosF sinF)
    (ms : List Place) (hn : (ms.length : ℝ) / 2 ^ p ≤ 1 / 1024) (q : PoseM)
    (hq : q = ms.foldl (fun q m => mulF fl q (makeF cosF sinF m.x m.y m.h)) PoseM.identity) :
    |q.rot.m00 - Real.cos (travel ms).h| ≤ 5 * ms.length / 2 ^ p ∧
    |q.rot.m01 + Real.sin (travel ms).h| ≤ 5 * ms.length / 2 ^ p ∧
    |q.rot.m10 - Real.sin (travel ms).h| ≤ 5 * ms.length / 2 ^ p ∧
    |q.rot.m11 - Real.cos (travel ms).h| ≤ 5 * ms.length / 2 ^ p ∧
    √((q.x - (travel ms).x) ^ 2 + (q.y - (travel ms).y) ^ 2) ≤ 8 * ms.length / 2 ^ p * way ms := by
  have h := C119.drift hp hfl ht ms hn
  rw [← hq] at h
  have r0 := h.row0
  have r1 := h.row1
  have r2 := h.pos
  rw [mul_one_div] at r0 r1 r2
  have a0 := (Complex.abs_re_le_norm _).trans r0
  have a1 := (Complex.abs_im_le_norm _).trans r0
  have b0 := (Complex.abs_re_le_norm _).trans r1
  have b1 := (Complex.abs_im_le_norm _).trans r1
  simp only [Complex.sub_re, Complex.sub_im, sub_neg_eq_add] at a0 a1 b0 b1
  refine ⟨a0, a1, b0, b1, ?_⟩
  rw [← norm_eq_sqrt]
  exact r2

/-- The heading read from that matrix. -/
theorem C119_matrix_heading (p : ℕ) (fl cosF sinF : ℝ → ℝ) (atan2F : ℝ → ℝ → ℝ) (hp : 10 ≤ p)
    (hfl : Rounds p fl) (ht : Trig p cosF sinF) (ha : Direction p atan2F) (ms : List Place)
    (hn : (ms.length : ℝ) / 2 ^ p ≤ 1 / 1024) (q : PoseM)
    (hq : q = ms.foldl (fun q m => mulF fl q (makeF cosF sinF m.x m.y m.h)) PoseM.identity) :
    Near ((12 * ms.length + 4) / 2 ^ p) (headingF atan2F q) (travel ms).h := by
  obtain ⟨h1, _, h2, _, _⟩ := C119_matrix p fl cosF sinF hp hfl ht ms hn q hq
  have h3 := norm_le_of (z := (⟨q.rot.m00, q.rot.m10⟩ : ℂ) -
    ⟨Real.cos (travel ms).h, Real.sin (travel ms).h⟩) (by simpa using h1) (by simpa using h2)
  have h4 : 1.4143 * (5 * ms.length / 2 ^ p) ≤ (1 : ℝ) / 100 := by
    have : 1.4143 * (5 * ms.length / 2 ^ p) = 7.0715 * ((ms.length : ℝ) / 2 ^ p) := by ring
    rw [this]; linarith
  obtain ⟨k, hk⟩ := arg_near h4 h3
  refine ⟨k, ?_⟩
  have h5 := ha q.rot.m10 q.rot.m00
  have h6 := abs_add_le (atan2F q.rot.m10 q.rot.m00 - Complex.arg ⟨q.rot.m00, q.rot.m10⟩)
    (Complex.arg ⟨q.rot.m00, q.rot.m10⟩ - ((travel ms).h + k * (2 * Real.pi)))
  rw [sub_add_sub_cancel] at h6
  have h7 : 1.6 * (1.4143 * (5 * ms.length / 2 ^ p)) + 4 / 2 ^ p ≤ (12 * (ms.length : ℝ) + 4) / 2 ^ p := by
    rw [add_div]
    have : (0 : ℝ) ≤ (ms.length : ℝ) / 2 ^ p := by positivity
    have e : 1.6 * (1.4143 * (5 * (ms.length : ℝ) / 2 ^ p)) = 11.3144 * ((ms.length : ℝ) / 2 ^ p) := by ring
    rw [e, mul_div_assoc]
    linarith
  exact (h6.trans (add_le_add h5 hk)).trans (by linarith)

/-- A pose that stores its heading, for doubles: after the motions (none turning by more than half a turn) the
heading is the true one up to 32 units in the last place per motion, and the position is
the true one up to 33 such units per motion of the length of the way. -/
theorem C119_angle_double (fl cosF sinF : ℝ → ℝ) (hfl : RoundsToNearest fl) (ht : Trig 53 cosF sinF)
    (ms : List Place) (hm : ∀ m ∈ ms, |m.h| ≤ 3.15) (hn : ms.length ≤ 2 ^ 43) (q : XYH)
    (hq : q = ms.foldl (fun q m => concatenateF fl cosF sinF (wrapD fl) q ⟨m.x, m.y, m.h⟩) ⟨0, 0, 0⟩) :
    Near (32 * ms.length / 2 ^ 53) q.h (travel ms).h ∧
    √((q.x - (travel ms).x) ^ 2 + (q.y - (travel ms).y) ^ 2) ≤ 33 * ms.length / 2 ^ 53 * way ms := by
  have hn' : (ms.length : ℝ) / 2 ^ 53 ≤ 1 / 1024 := by
    rw [div_le_iff₀ (by positivity)]
    have : (ms.length : ℝ) ≤ 2 ^ 43 := by exact_mod_cast hn
    norm_num at this ⊢
    exact this
  have h := C119.lag (by norm_num) (rounds_double.2 hfl) ht (C119.wraps_double hfl) ms hm hn'
  rw [← hq] at h
  have h1 := h.head
  have h2 := h.pos
  rw [mul_one_div] at h1 h2
  refine ⟨h1, ?_⟩
  rw [← norm_eq_sqrt]
  exact h2

/-- The same for floats. -/
theorem C119_angle_single (fl fs cosF sinF : ℝ → ℝ) (hfl : RoundsToNearest fl) (hfs : RoundsToSingle fs)
    (ht : Trig 24 cosF sinF) (ms : List Place) (hm : ∀ m ∈ ms, |m.h| ≤ 3.15) (hn : ms.length ≤ 2 ^ 14) (q : XYH)
    (hq : q = ms.foldl (fun q m => concatenateF fs cosF sinF (wrapS fl fs) q ⟨m.x, m.y, m.h⟩) ⟨0, 0, 0⟩) :
    Near (32 * ms.length / 2 ^ 24) q.h (travel ms).h ∧
    √((q.x - (travel ms).x) ^ 2 + (q.y - (travel ms).y) ^ 2) ≤ 33 * ms.length / 2 ^ 24 * way ms := by
  have hn' : (ms.length : ℝ) / 2 ^ 24 ≤ 1 / 1024 := by
    rw [div_le_iff₀ (by positivity)]
    have : (ms.length : ℝ) ≤ 2 ^ 14 := by exact_mod_cast hn
    norm_num at this ⊢
    exact this
  have h := C119.lag (by norm_num) (rounds_single.2 hfs) ht (C119.wraps_single hfl hfs) ms hm hn'
  rw [← hq] at h
  have h1 := h.head
  have h2 := h.pos
  rw [mul_one_div] at h1 h2
  refine ⟨h1, ?_⟩
  rw [← norm_eq_sqrt]
  exact h2

/-- The rotation matrix of a pose is never exactly a rotation, whatever the precision and however good the
library, except for quarter turns: lengths are not preserved. -/
theorem C119_fails_rotation (p : ℕ) (cosF sinF : ℝ → ℝ) (x y a : ℝ) (hc : IsFloat p (cosF a))
    (hs : IsFloat p (sinF a)) (hc0 : cosF a ≠ 0) (hs0 : sinF a ≠ 0) :
    let r := (makeF cosF sinF x y a).rot
    r.m00 ^ 2 + r.m10 ^ 2 ≠ 1 ∧ r.m00 * r.m11 - r.m01 * r.m10 ≠ 1 := by
  have key : cosF a ^ 2 + sinF a ^ 2 ≠ 1 := by
    intro h
    obtain ⟨n1, h1⟩ := C119.fraction hc
    obtain ⟨n2, h2⟩ := C119.fraction hs
    obtain ⟨c, hc⟩ := h1 (max n1 n2) (le_max_left _ _)
    obtain ⟨s, hs⟩ := h2 (max n1 n2) (le_max_right _ _)
    have h3 : c ^ 2 + s ^ 2 = 4 ^ (max n1 n2) := by
      have : ((c ^ 2 + s ^ 2 : ℤ) : ℝ) = ((4 ^ (max n1 n2) : ℤ) : ℝ) := by
        push_cast
        rw [← hc, ← hs, mul_pow, mul_pow, ← add_mul, h, one_mul, ← pow_mul, mul_comm, pow_mul]
        norm_num
      exact_mod_cast this
    have h4 : (2 : ℝ) ^ (max n1 n2) ≠ 0 := by positivity
    rcases C119.four _ c s h3 with rfl | rfl
    · rw [Int.cast_zero] at hc
      exact hc0 ((mul_eq_zero.1 hc).resolve_right h4)
    · rw [Int.cast_zero] at hs
      exact hs0 ((mul_eq_zero.1 hs).resolve_right h4)
  intro r
  refine ⟨key, ?_⟩
  intro h
  apply key
  simp only [r, makeF, rotationF] at h
  linarith

namespace C119

/-- A library that rounds the true values. -/
theorem good {p : ℕ} {fl : ℝ → ℝ} (hp : 1 ≤ p) (hfl : Rounds p fl) :
    Trig p (fun a => fl (Real.cos a)) (fun a => fl (Real.sin a)) ∧
    Direction p (fun y x => fl (Complex.arg ⟨x, y⟩)) := by
  have h : ∀ x c : ℝ, |x| ≤ c → |fl x - x| ≤ c / 2 ^ p := fun x c hx =>
    (hfl.relative hp x).trans (by gcongr)
  refine ⟨fun a => ⟨h _ _ (Real.abs_cos_le_one a), h _ _ (Real.abs_sin_le_one a)⟩, fun y x => ?_⟩
  exact h _ _ ((Complex.abs_arg_le_pi _).trans Real.pi_le_four)

end C119

/-- There are such arithmetics and libraries, and a thousand motions are few enough. -/
example : Rounds 53 round53 ∧ RoundsToNearest round53 ∧
    Trig 53 (fun a => round53 (Real.cos a)) (fun a => round53 (Real.sin a)) ∧
    Direction 53 (fun y x => round53 (Complex.arg ⟨x, y⟩)) ∧
    ((List.replicate 1000 (⟨1, 0, 0.01⟩ : Place)).length : ℝ) / 2 ^ 53 ≤ 1 / 1024 ∧
    ∀ m ∈ List.replicate 1000 (⟨1, 0, 0.01⟩ : Place), |m.h| ≤ 3.15 := by
  have h := C119.good (p := 53) (by norm_num) (rounds_double.2 round53_nearest)
  refine ⟨rounds_double.2 round53_nearest, round53_nearest, h.1, h.2, ?_, ?_⟩
  · rw [List.length_replicate]; norm_num
  · intro m hm
    rw [List.eq_of_mem_replicate hm]
    norm_num [abs_of_pos]

example : RoundsToSingle round24 ∧ Trig 24 (fun a => round24 (Real.cos a)) (fun a => round24 (Real.sin a)) :=
  ⟨round24_nearest, (C119.good (by norm_num) (rounds_single.2 round24_nearest)).1⟩

/-- The way of a thousand steps of length one. -/
example : way (List.replicate 1000 ⟨1, 0, 0.01⟩) = 1000 := by
  rw [way, List.map_replicate, List.sum_replicate]
  norm_num

/-- A turn of which the library gives neither zero for the cosine nor for the sine. -/
example : IsFloat 53 (0.75 : ℝ) ∧ IsFloat 53 (0.625 : ℝ) :=
  ⟨⟨3, -2, by norm_num, by norm_num⟩, ⟨5, -3, by norm_num, by norm_num⟩⟩

end Ecl.Props
