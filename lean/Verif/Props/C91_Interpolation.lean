import Verif.Lemmas.Frames
import Mathlib.Tactic.NormNum

/-!
# C91: interpolation between frames
-/
set_option autoImplicit false
set_option linter.unusedSimpArgs false

namespace Ecl.Props
open Ecl.Frames Ecl.Spec

/-- The interpolator starts at the first frame, ends at the second and moves with constant velocity. -/
theorem C91_interpolator {G V : Type} [Group G] [AddCommGroup V] [Module ℝ V] (exp : V → G) (log : G → V)
    (hexp : OneParameter exp) (Ta Tb : G) (hlog : exp (log (Tb * Ta⁻¹)) = Tb * Ta⁻¹) :
    (Interpolator.make log Ta Tb).at exp 0 = Ta ∧ (Interpolator.make log Ta Tb).at exp 1 = Tb ∧
      ∀ s t h, (Interpolator.make log Ta Tb).at exp (s + h) * ((Interpolator.make log Ta Tb).at exp s)⁻¹ =
        (Interpolator.make log Ta Tb).at exp (t + h) * ((Interpolator.make log Ta Tb).at exp t)⁻¹ := by
  unfold Interpolator.at Interpolator.make
  simp only
  refine ⟨by rw [OneParameter.zero hexp, one_mul], by rw [one_smul, hlog, inv_mul_cancel_right], ?_⟩
  intro s t h
  have key : ∀ s, exp ((s + h) • log (Tb * Ta⁻¹)) * Ta * (exp (s • log (Tb * Ta⁻¹)) * Ta)⁻¹ =
      exp (h • log (Tb * Ta⁻¹)) := by
    intro s
    rw [add_comm s h, hexp h s, mul_inv_rev]
    group
  rw [key, key]

/-- The exponential and the logarithm of the plane are such functions, for all frames. -/
theorem C91_plane (a : SE2) : OneParameter se2Exp ∧ se2Exp (se2Log a) = a :=
  ⟨se2_one_parameter, se2_exp_log a⟩

example : (Interpolator.make se2Log ⟨1, 0⟩ ⟨Circle.exp 1, Complex.I⟩).at se2Exp 1 = ⟨Circle.exp 1, Complex.I⟩ :=
  (C91_interpolator se2Exp se2Log se2_one_parameter _ _ (se2_exp_log _)).2.1

/-- The sliding interpolator moves the pose (the inverse of the frame) along the straight line from the
first to the second position, and turns it like the interpolator; it starts and ends at the two frames. -/
theorem C91_sliding {V : Type} [AddCommGroup V] [Module ℝ V] (exp : V → SE3) (log : SE3 → V)
    (hexp : OneParameter exp) (Ta Tb : SE3) (hlog : exp (log (Tb * Ta⁻¹)) = Tb * Ta⁻¹) :
    (∀ t : ℝ, (sliding exp log Ta Tb t)⁻¹.trans = Ta⁻¹.trans + t • (Tb⁻¹.trans - Ta⁻¹.trans) ∧
      (sliding exp log Ta Tb t).rot = ((Interpolator.make log Ta Tb).at exp t).rot) ∧
      sliding exp log Ta Tb 0 = Ta ∧ sliding exp log Ta Tb 1 = Tb := by
  obtain ⟨h0, h1, -⟩ := C91_interpolator exp log hexp Ta Tb hlog
  refine ⟨fun t => ⟨?_, ?_⟩, ?_, ?_⟩
  · unfold sliding
    simp only
    rw [inv_inv]
  · unfold sliding
    simp only
    rw [Rigid.inv_rot, Rigid.inv_rot, inv_inv]
  · unfold sliding
    simp only
    rw [h0, zero_smul, add_zero, show (⟨Ta⁻¹.rot, Ta⁻¹.trans⟩ : SE3) = Ta⁻¹ from rfl, inv_inv]
  · unfold sliding
    simp only
    rw [h1, one_smul, add_sub_cancel, show (⟨Tb⁻¹.rot, Tb⁻¹.trans⟩ : SE3) = Tb⁻¹ from rfl, inv_inv]

/-- The hypotheses of the last theorem are met by any two frames of a plane. -/
example (a b : SE2) : ∃ (exp : ℂ × ℝ → SE3) (log : SE3 → ℂ × ℝ), OneParameter exp ∧
    exp (log (embed b * (embed a)⁻¹)) = embed b * (embed a)⁻¹ := by
  refine ⟨fun v => embed (se2Exp v), fun _ => se2Log (b * a⁻¹), fun s t v => ?_, ?_⟩
  · simp only
    rw [se2_one_parameter s t v, embed_mul]
  · show embed (se2Exp (se2Log (b * a⁻¹))) = _
    rw [se2_exp_log, embed_mul, embed_inv]

/-- Between frames of which the second is a planar motion of the first, the planar interpolator starts at
the first, ends at the second and stays in the plane, with constant velocity.  Missing: other frames,
which are not all refused; see `C91_planar_iff`. -/
theorem C91_planar_partial (m : Mode) (logz : (Space ≃ₗ[ℝ] Space) → ℝ)
    (hlog : ∀ c, Circle.exp (logz (rz c)) = c) (Ta Tb : SE3) (h : IsPlanar (Tb * Ta⁻¹)) :
    ∃ p, Planar.make m logz Ta Tb = .ok p ∧ p.at 0 = Ta ∧ p.at 1 = Tb ∧
      (∀ t, IsPlanar (p.at t * Ta⁻¹)) ∧
      ∀ s t h, p.at (s + h) * (p.at s)⁻¹ = p.at (t + h) * (p.at t)⁻¹ := by
  obtain ⟨a, ha⟩ := (isPlanar_iff _).1 h
  have hinv : (Tb * Ta⁻¹)⁻¹ = embed a⁻¹ := by rw [ha, embed_inv]
  have hmake : Planar.make m logz Ta Tb = .ok ⟨Ta, se2Log a⟩ := by
    unfold Planar.make
    simp only
    rw [hinv]
    have h1 : (embed a⁻¹).trans.2 = 0 := rfl
    have h2 : (⟨Circle.exp (logz (embed a⁻¹).rot), (embed a⁻¹).trans.1⟩ : SE2) = a⁻¹ :=
      Rigid.ext (hlog a⁻¹.rot) rfl
    rw [h1, h2, inv_inv]
    cases m <;> simp [assertThrow]
  refine ⟨_, hmake, ?_, ?_, fun t => ?_, ?_⟩
  · rw [Planar.at_eq, OneParameter.zero se2_one_parameter, embed_one, one_mul]
  · rw [Planar.at_eq, one_smul, se2_exp_log, ← ha, inv_mul_cancel_right]
  · rw [Planar.at_eq, mul_inv_cancel_right]
    exact (isPlanar_iff _).2 ⟨_, rfl⟩
  · have key : ∀ s h : ℝ, Planar.at ⟨Ta, se2Log a⟩ (s + h) * (Planar.at ⟨Ta, se2Log a⟩ s)⁻¹ =
        embed (se2Exp (h • se2Log a)) := by
      intro s h
      rw [Planar.at_eq, Planar.at_eq]
      simp only
      rw [add_comm s h, se2_one_parameter h s, embed_mul, mul_inv_rev]
      group
    intro s t h
    rw [key, key]

/-- Refused are exactly the frames whose height differs by at least a hundred-thousandth, in debug
builds; every other interpolator starts at the first frame, stays in its plane with constant velocity,
and ends at the second frame exactly when that is a planar motion of the first. -/
theorem C91_planar_iff (m : Mode) (logz : (Space ≃ₗ[ℝ] Space) → ℝ)
    (hlog : ∀ c, Circle.exp (logz (rz c)) = c) (Ta Tb : SE3) :
    (m = .debug ∧ 1 / 100000 ≤ |((Tb * Ta⁻¹)⁻¹.apply (0, 0)).2| ∧
      Planar.make m logz Ta Tb = .throw .invalidArgError) ∨
    ((m = .debug → |((Tb * Ta⁻¹)⁻¹.apply (0, 0)).2| < 1 / 100000) ∧
      ∃ p, Planar.make m logz Ta Tb = .ok p ∧ p.at 0 = Ta ∧ (p.at 1 = Tb ↔ IsPlanar (Tb * Ta⁻¹)) ∧
        (∀ t, IsPlanar (p.at t * Ta⁻¹)) ∧
        ∀ s t h, p.at (s + h) * (p.at s)⁻¹ = p.at (t + h) * (p.at t)⁻¹) := by
  have hz : ((Tb * Ta⁻¹)⁻¹.apply (0, 0)).2 = (Tb * Ta⁻¹)⁻¹.trans.2 := by
    show ((Tb * Ta⁻¹)⁻¹.trans + (Tb * Ta⁻¹)⁻¹.rot (0 : Space)).2 = _
    rw [map_zero, add_zero]
  rw [hz]
  by_cases hr : m = .debug ∧ 1 / 100000 ≤ |(Tb * Ta⁻¹)⁻¹.trans.2|
  · left
    refine ⟨hr.1, hr.2, ?_⟩
    obtain ⟨rfl, hr⟩ := hr
    unfold Planar.make
    simp only
    rw [decide_eq_false (not_lt.2 hr)]
    rfl
  · right
    refine ⟨fun hm => not_le.1 fun h => hr ⟨hm, h⟩, ?_⟩
    have hmake : ∃ v, Planar.make m logz Ta Tb = .ok ⟨Ta, v⟩ := by
      unfold Planar.make
      simp only
      cases m
      · have : |(Tb * Ta⁻¹)⁻¹.trans.2| < 1 / 100000 := not_le.1 fun h => hr ⟨rfl, h⟩
        rw [decide_eq_true this]
        exact ⟨_, rfl⟩
      · exact ⟨_, rfl⟩
    obtain ⟨v, hmake⟩ := hmake
    have h0 : Planar.at ⟨Ta, v⟩ 0 = Ta := by
      rw [Planar.at_eq, OneParameter.zero se2_one_parameter, embed_one, one_mul]
    have hpl : ∀ t, IsPlanar (Planar.at ⟨Ta, v⟩ t * Ta⁻¹) := by
      intro t
      rw [Planar.at_eq, mul_inv_cancel_right]
      exact (isPlanar_iff _).2 ⟨_, rfl⟩
    refine ⟨_, hmake, h0, ⟨fun h => ?_, fun h => ?_⟩, hpl, ?_⟩
    · have := hpl 1
      rwa [h] at this
    · obtain ⟨p, hp, -, h1, -⟩ := C91_planar_partial m logz hlog Ta Tb h
      rw [hmake] at hp
      injection hp with hp
      rw [hp, h1]
    · have key : ∀ s h : ℝ, Planar.at ⟨Ta, v⟩ (s + h) * (Planar.at ⟨Ta, v⟩ s)⁻¹ =
          embed (se2Exp (h • v)) := by
        intro s h
        rw [Planar.at_eq, Planar.at_eq]
        simp only
        rw [add_comm s h, se2_one_parameter h s, embed_mul, mul_inv_rev]
        group
      intro s t h
      rw [key, key]

/-- A logarithm with that property: the argument of the image of the first unit vector. -/
example : ∀ c, Circle.exp (Complex.arg ((rz c) (1, 0)).1) = c := by
  intro c
  rw [rz_apply, mul_one, Circle.exp_arg]

example : IsPlanar (embed ⟨Circle.exp 1, 2⟩ * (embed ⟨Circle.exp 2, 3⟩)⁻¹) := by
  rw [embed_inv, ← embed_mul]
  exact (isPlanar_iff _).2 ⟨_, rfl⟩

/-- A quarter turn around the x axis. -/
private noncomputable def quarterX : Space ≃ₗ[ℝ] Space where
  toFun v := (⟨v.1.re, -v.2⟩, v.1.im)
  invFun v := (⟨v.1.re, v.2⟩, -v.1.im)
  left_inv v := by
    refine Prod.ext (Complex.ext ?_ ?_) ?_ <;> simp
  right_inv v := by
    refine Prod.ext (Complex.ext ?_ ?_) ?_ <;> simp
  map_add' u v := by
    refine Prod.ext (Complex.ext ?_ ?_) ?_ <;> simp [add_comm]
  map_smul' a v := by
    refine Prod.ext (Complex.ext ?_ ?_) ?_ <;> simp

/-- A frame that is tilted against the first is not refused, in no build, and not reached. -/
theorem C91_fails_tilted (m : Mode) (logz : (Space ≃ₗ[ℝ] Space) → ℝ) :
    ∃ Tb : SE3, ¬ IsPlanar (Tb * (1 : SE3)⁻¹) ∧ ∃ p, Planar.make m logz 1 Tb = .ok p ∧ p.at 1 ≠ Tb := by
  have hn : ¬ IsPlanar (⟨quarterX, 0⟩ : SE3) := by
    rintro ⟨c, u, h⟩
    have h1 := congrArg Prod.snd (h (0, 1))
    have h2 : ((⟨quarterX, 0⟩ : SE3).apply (0, 1)).2 = 0 := by
      show ((0 : Space) + quarterX (0, 1)).2 = 0
      simp [quarterX]
    rw [h2] at h1
    norm_num at h1
  refine ⟨⟨quarterX, 0⟩, by rwa [inv_one, mul_one], ?_⟩
  have hz : (((⟨quarterX, 0⟩ : SE3) * (1 : SE3)⁻¹)⁻¹).trans.2 = 0 := by
    rw [inv_one, mul_one]
    show (-(quarterX⁻¹ • (0 : Space))).2 = 0
    rw [smul_zero]
    simp
  have hmake : ∃ t, Planar.make m logz 1 ⟨quarterX, 0⟩ = .ok ⟨1, t⟩ := by
    unfold Planar.make
    simp only
    rw [hz]
    cases m
    · exact ⟨_, by simp [assertThrow]; rfl⟩
    · exact ⟨_, by simp [assertThrow]; rfl⟩
  obtain ⟨t, hmake⟩ := hmake
  refine ⟨_, hmake, ?_⟩
  intro h
  apply hn
  rw [Planar.at_eq] at h
  rw [← h]
  exact (isPlanar_iff _).2 ⟨_, mul_one _⟩

/-- In release builds a frame at another height is not refused either. -/
theorem C91_fails_height (logz : (Space ≃ₗ[ℝ] Space) → ℝ) :
    Planar.make .debug logz 1 ⟨1, (0, 1)⟩ = .throw .invalidArgError ∧
      ∃ p, Planar.make .release logz 1 ⟨1, (0, 1)⟩ = .ok p ∧ p.at 1 ≠ ⟨1, (0, 1)⟩ := by
  have hz : (((⟨1, (0, 1)⟩ : SE3) * (1 : SE3)⁻¹)⁻¹).trans.2 = -1 := by
    rw [inv_one, mul_one]
    show (-((1 : Space ≃ₗ[ℝ] Space)⁻¹ • ((0, 1) : Space))).2 = -1
    rw [inv_one, one_smul]
    simp
  constructor
  · unfold Planar.make
    simp only
    rw [hz]
    have : ¬ |(-1 : ℝ)| < 1 / 100000 := by norm_num
    simp [assertThrow, this]
    norm_num
  · refine ⟨_, by unfold Planar.make; simp [assertThrow]; rfl, ?_⟩
    intro h
    rw [Planar.at_eq] at h
    have := congrArg (fun T : SE3 => T.trans.2) h
    simp only [mul_one] at this
    have h2 : ∀ a : SE2, (embed a).trans.2 = 0 := fun _ => rfl
    rw [h2] at this
    norm_num at this

end Ecl.Props
