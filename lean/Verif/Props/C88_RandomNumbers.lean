import Verif.Lemmas.Single
import Verif.Lemmas.RandomNumbers

/-!
# C88: random numbers

`fl` is the rounding of the floating point unit, `lib` the numbers of the C library's `rand` for each
seed.
-/
set_option autoImplicit false

namespace Ecl.Props
open Ecl.Rng Ecl.Spec

/-- `lib` gives numbers from 0 to `RAND_MAX`. -/
def InRange (lib : Lib) : Prop := ∀ seed i, lib seed i ≤ randMax

/-- The program's start: `rand` behaves as after `srand(1)`. -/
def fresh : World := ⟨1, 0, none⟩

/-- Uniform numbers are between 0 and 1, and with a range `r` between `-r` and `r`. -/
theorem C88_uniform (fl : ℝ → ℝ) (hfl : RoundsToNearest fl) (lib : Lib) (hlib : InRange lib) (s : World) :
    0 ≤ (uniform fl lib s).1 ∧ (uniform fl lib s).1 ≤ 1 ∧
      ∀ r, IsDouble r → |(uniformIn fl lib r s).1| ≤ |r| := by
  obtain ⟨h0, h1⟩ := uniform_mem hfl hlib s
  refine ⟨h0, h1, fun r hr => ?_⟩
  unfold uniformIn
  generalize (uniform fl lib s).1 = u at *
  have a1 : fl (u - 1 / 2) ≤ 1 / 2 := hfl.le ⟨1, -1, by norm_num, by norm_num⟩ (by linarith)
  have a2 : -(1 / 2) ≤ fl (u - 1 / 2) := hfl.ge ⟨-1, -1, by norm_num, by norm_num⟩ (by linarith)
  have b1 : fl (fl (u - 1 / 2) * 2) ≤ 1 := hfl.le ⟨1, 0, by norm_num, by norm_num⟩ (by linarith)
  have b2 : -1 ≤ fl (fl (u - 1 / 2) * 2) := hfl.ge ⟨-1, 0, by norm_num, by norm_num⟩ (by linarith)
  have hd : IsDouble |r| := by
    rcases abs_choice r with h | h <;> rw [h]
    · exact hr
    · exact hr.neg
  have c : |fl (fl (u - 1 / 2) * 2) * r| ≤ |r| := by
    rw [abs_mul]
    exact mul_le_of_le_one_left (abs_nonneg _) (abs_le.2 ⟨b2, b1⟩)
  rw [abs_le] at c
  exact abs_le.2 ⟨hfl.ge hd.neg c.1, hfl.le hd c.2⟩

example : InRange (fun seed i => (seed + i) % 2147483648) ∧ IsDouble 10 := by
  refine ⟨fun seed i => ?_, ⟨10, 0, by norm_num, by simp⟩⟩
  show (seed + i) % 2147483648 ≤ 2147483647
  omega

/-- No number a program gets is NaN. -/
theorem C88_number (fl : ℝ → ℝ) (hfl : RoundsToNearest fl) (lib : Lib) (hlib : InRange lib) (fuel : Nat)
    (ops : List Op) (out : List (Option ℝ)) (s' : World)
    (h : run fl lib fuel ops fresh = some (out, s')) : none ∉ out := by
  suffices H : ∀ (ops : List Op) (s : World) (out : List (Option ℝ)), s.last ≠ some none →
      run fl lib fuel ops s = some (out, s') → none ∉ out from H ops fresh out (by simp [fresh]) h
  intro ops
  induction ops with
  | nil => intro s out _ h; simp only [run, Option.some.injEq, Prod.mk.injEq] at h; simp [← h.1]
  | cons o ops ih =>
    intro s out hs h
    cases o with
    | construct seed => exact ih (construct seed s) out hs h
    | uniform =>
      simp only [run, Option.map_eq_some_iff, Prod.mk.injEq] at h
      obtain ⟨r, hr, rfl, rfl⟩ := h
      have := ih (uniform fl lib s).2 r.1 hs hr
      simpa using this
    | uniformIn range =>
      simp only [run, Option.map_eq_some_iff, Prod.mk.injEq] at h
      obtain ⟨r, hr, rfl, rfl⟩ := h
      have := ih (uniformIn fl lib range s).2 r.1 hs hr
      simpa using this
    | gaussian std mu =>
      simp only [run] at h
      split at h
      · cases h
      · rename_i y t ht
        simp only [Option.map_eq_some_iff, Prod.mk.injEq] at h
        obtain ⟨r, hr, rfl, rfl⟩ := h
        have key : y ≠ none ∧ t.last ≠ some none := by
          unfold gaussian at ht
          cases hl : s.last with
          | some z =>
            rw [hl] at ht hs
            simp only [Option.some.injEq, Prod.mk.injEq] at ht
            obtain ⟨rfl, rfl⟩ := ht
            cases z with
            | none => exact absurd rfl hs
            | some z => simp [placed]
          | none =>
            rw [hl] at ht
            simp only at ht
            split at ht
            · cases ht
            · rename_i p t' hp
              obtain ⟨p0, p1, -⟩ := loop_pos hfl hlib hp
              obtain ⟨f, hf, -⟩ := factor_pos hfl p0 p1
              simp only [Option.some.injEq, Prod.mk.injEq] at ht
              obtain ⟨rfl, rfl⟩ := ht
              simp [hf, scaled, placed]
        have := ih t r.1 key.2 hr
        simp only [List.mem_cons, not_or]
        exact ⟨fun h => key.1 h.symm, this⟩

/-- In exact arithmetic two numbers in a row, with standard deviation 1 and mean 0, are the coordinates
of a point of the unit disc, drawn with two uniform numbers each of its passes, moved along its ray to
the distance `√(-2 log w)`, where `w` is the square of the old distance. -/
theorem C88_polar (lib : Lib) (fuel : Nat) (s s1 s2 : World) (y1 y2 : ℝ) (hs : s.last = none)
    (h1 : gaussian (fun x => x) lib fuel 1 0 s = some (some y1, s1))
    (h2 : gaussian (fun x => x) lib fuel 1 0 s1 = some (some y2, s2)) :
    ∃ x1 x2 c : ℝ, ∃ k, x1 = 2 * (lib s.seed (s.drawn + 2 * k) / randMax) - 1 ∧
      x2 = 2 * (lib s.seed (s.drawn + 2 * k + 1) / randMax) - 1 ∧
      x1 ^ 2 + x2 ^ 2 < 1 ∧ 0 ≤ c ∧ y1 = c * x1 ∧ y2 = c * x2 ∧
      y1 ^ 2 + y2 ^ 2 = -2 * Real.log (x1 ^ 2 + x2 ^ 2) ∧ s2.last = none ∧
      s2.drawn = s.drawn + 2 * k + 2 := by
  unfold gaussian at h1
  rw [hs] at h1
  simp only at h1
  split at h1
  · cases h1
  rename_i p t hp
  simp only [Option.some.injEq, Prod.mk.injEq] at h1
  obtain ⟨e1, rfl⟩ := h1
  unfold gaussian at h2
  simp only [Option.some.injEq, Prod.mk.injEq] at h2
  obtain ⟨e2, rfl⟩ := h2
  have hl : ∀ (fuel : Nat) (s : World), loop (fun x => x) lib fuel s = some (p, t) →
      ∃ k, p.x1 = 2 * (lib s.seed (s.drawn + 2 * k) / randMax) - 1 ∧
        p.x2 = 2 * (lib s.seed (s.drawn + 2 * k + 1) / randMax) - 1 ∧ p.w = p.x1 ^ 2 + p.x2 ^ 2 ∧
        p.w < 1 ∧ t.drawn = s.drawn + 2 * k + 2 := by
    intro fuel
    induction fuel with
    | zero => intro s h; simp [loop] at h
    | succ n ih =>
      intro s h
      rw [loop] at h
      split at h
      · obtain ⟨k, k1, k2, k3, k4, k5⟩ := ih _ h
        have e0 : (point (fun x => x) lib s).2.drawn = s.drawn + 2 := rfl
        have e0' : (point (fun x => x) lib s).2.seed = s.seed := rfl
        rw [e0, e0'] at k1 k2
        rw [e0] at k5
        refine ⟨k + 1, ?_, ?_, k3, k4, by omega⟩
        · rw [k1]; congr 5; omega
        · rw [k2]; congr 5; omega
      · rename_i hw
        have e := Option.some.inj h
        have ep : (point (fun x => x) lib s).1 = p := by rw [e]
        have et : (point (fun x => x) lib s).2 = t := by rw [e]
        rw [ep] at hw
        refine ⟨0, ?_, ?_, ?_, not_le.1 hw, by rw [← et]; rfl⟩
        · rw [← ep]; rfl
        · rw [← ep]; rfl
        · rw [← ep]; simp only [point]; ring
  obtain ⟨k, k1, k2, k3, k4, k5⟩ := hl fuel s hp
  have hw0 : p.w ≠ 0 := by
    intro h0
    rw [h0] at e1
    simp [factor, scaled, placed] at e1
  have hwp : 0 < p.w := lt_of_le_of_ne (by rw [k3]; positivity) (Ne.symm hw0)
  have hf : factor (fun x => x) p.w = some (√(-2 * Real.log p.w / p.w)) := if_neg hw0
  simp only [hf, scaled, placed, Option.map_some, Option.some.injEq, mul_one, zero_add] at e1 e2
  have hq : 0 ≤ -2 * Real.log p.w / p.w :=
    div_nonneg (by linarith [Real.log_neg hwp k4]) hwp.le
  refine ⟨p.x1, p.x2, √(-2 * Real.log p.w / p.w), k, k1, k2, k3 ▸ k4, Real.sqrt_nonneg _,
    by rw [← e1]; ring, by rw [← e2]; ring, ?_, rfl, k5⟩
  rw [← e1, ← e2, mul_pow, mul_pow, Real.sq_sqrt hq, ← k3, ← add_mul, ← k3]
  field_simp

/-- The mean is added to, and the standard deviation multiplies, what a call with mean 0 and deviation 1
gives. -/
theorem C88_scale (lib : Lib) (fuel : Nat) (s s1 : World) (y std mu : ℝ)
    (h : gaussian (fun x => x) lib fuel 1 0 s = some (some y, s1)) :
    gaussian (fun x => x) lib fuel std mu s = some (some (mu + std * y), s1) := by
  unfold gaussian at h ⊢
  split at h
  · simp only [Option.some.injEq, Prod.mk.injEq] at h
    rename_i z hz
    obtain ⟨e, rfl⟩ := h
    cases z with
    | none => simp [placed] at e
    | some z => simp only [placed, Option.map_some, Option.some.injEq, mul_one, zero_add] at e ⊢; rw [e, mul_comm]
  · split at h
    · cases h
    · rename_i p t hp
      simp only [Option.some.injEq, Prod.mk.injEq] at h
      obtain ⟨e, rfl⟩ := h
      generalize scaled (fun x => x) p.x1 (factor (fun x => x) p.w) = z at e ⊢
      cases z with
      | none => simp [placed] at e
      | some z => simp only [placed, Option.map_some, Option.some.injEq, mul_one, zero_add] at e ⊢; rw [e, mul_comm]

/-- A generator constructed with a seed gives the numbers it gives in a fresh program, if an even number
of normally distributed numbers was drawn before, and no other generator is constructed or used
in between. -/
theorem C88_reproducible_partial (fl : ℝ → ℝ) (lib : Lib) (fuel : Nat) (before ops : List Op)
    (out : List (Option ℝ)) (s : World) (h : run fl lib fuel before fresh = some (out, s))
    (he : gaussians before % 2 = 0) (seed : Nat) :
    run fl lib fuel (.construct seed :: ops) s = run fl lib fuel (.construct seed :: ops) fresh := by
  have h1 := run_last before h
  have h2 : s.last = none := by
    rw [he] at h1
    simpa [fresh] using h1
  have : construct seed s = construct seed fresh := by
    unfold construct
    rw [h2]
    rfl
  simp only [run, this]

/-! Two numbers whose points are within the disc, for every rounding. -/

private def lib2 : Lib := fun _ i => if i % 2 = 0 then 1342177280 else 805306368

private theorem lib2_inRange : InRange lib2 := fun _ i => by unfold lib2 randMax; split <;> omega

/-- Two calls in a row as in the theorems above. -/
example : ∃ y1 s1 y2 s2, gaussian (fun x => x) lib2 1 1 0 fresh = some (some y1, s1) ∧
    gaussian (fun x => x) lib2 1 1 0 s1 = some (some y2, s2) := by
  have hw : (point (fun x => x) lib2 fresh).1.w < 1 := by
    simp [point, coordinate, uniform, rand, lib2, fresh, randMax]; norm_num
  have hw0 : (point (fun x => x) lib2 fresh).1.w ≠ 0 := by
    simp [point, coordinate, uniform, rand, lib2, fresh, randMax]; norm_num
  have hl : loop (fun x => x) lib2 1 fresh = some (point (fun x => x) lib2 fresh) := by
    rw [loop, if_neg (not_le.2 hw)]
  have hf : factor (fun x => x) (point (fun x => x) lib2 fresh).1.w = some _ := if_neg hw0
  unfold gaussian
  rw [hl]
  simp only [fresh] at hf ⊢
  simp only [hf, scaled, placed, Option.map_some]
  exact ⟨_, _, _, _, rfl, rfl⟩

private theorem lib2_point {fl : ℝ → ℝ} (hfl : RoundsToNearest fl) (s : World) (hs : s.drawn = 0) :
    0 < (point fl lib2 s).1.x1 ∧ (point fl lib2 s).1.x2 < 0 ∧ (point fl lib2 s).1.w < 1 := by
  have c1 : 1 / 4 ≤ (coordinate fl lib2 s).1 ∧ (coordinate fl lib2 s).1 ≤ 1 / 2 := by
    have u0 : lib2 s.seed s.drawn = 1342177280 := by rw [hs]; rfl
    have u1 : 5 / 8 ≤ (uniform fl lib2 s).1 := by
      rw [uniform_eq hfl lib2_inRange, u0]
      exact hfl.ge ⟨5, -3, by norm_num, by norm_num⟩ (by unfold randMax; norm_num)
    have u2 : (uniform fl lib2 s).1 ≤ 3 / 4 := by
      rw [uniform_eq hfl lib2_inRange, u0]
      exact hfl.le ⟨3, -2, by norm_num, by norm_num⟩ (by unfold randMax; norm_num)
    rw [coordinate_eq hfl]
    exact ⟨hfl.ge ⟨1, -2, by norm_num, by norm_num⟩ (by linarith),
      hfl.le ⟨1, -1, by norm_num, by norm_num⟩ (by linarith)⟩
  have c2 : -1 / 4 ≤ (coordinate fl lib2 (coordinate fl lib2 s).2).1 ∧
      (coordinate fl lib2 (coordinate fl lib2 s).2).1 ≤ -1 / 8 := by
    have e : (coordinate fl lib2 s).2.drawn = 1 := by
      show s.drawn + 1 = 1
      rw [hs]
    generalize (coordinate fl lib2 s).2 = s at *
    have u0 : lib2 s.seed s.drawn = 805306368 := by rw [e]; rfl
    have u1 : 3 / 8 ≤ (uniform fl lib2 s).1 := by
      rw [uniform_eq hfl lib2_inRange, u0]
      exact hfl.ge ⟨3, -3, by norm_num, by norm_num⟩ (by unfold randMax; norm_num)
    have u2 : (uniform fl lib2 s).1 ≤ 7 / 16 := by
      rw [uniform_eq hfl lib2_inRange, u0]
      exact hfl.le ⟨7, -4, by norm_num, by norm_num⟩ (by unfold randMax; norm_num)
    rw [coordinate_eq hfl]
    exact ⟨hfl.ge ⟨-1, -2, by norm_num, by norm_num⟩ (by linarith),
      hfl.le ⟨-1, -3, by norm_num, by norm_num⟩ (by linarith)⟩
  simp only [point]
  generalize (coordinate fl lib2 (coordinate fl lib2 s).2).1 = b at *
  generalize (coordinate fl lib2 s).1 = a at *
  refine ⟨by linarith, by linarith, ?_⟩
  have d1 : fl (a * a) ≤ 1 / 4 := hfl.le ⟨1, -2, by norm_num, by norm_num⟩ (by nlinarith)
  have d2 : fl (b * b) ≤ 1 / 4 := hfl.le ⟨1, -2, by norm_num, by norm_num⟩ (by nlinarith)
  have : fl (fl (a * a) + fl (b * b)) ≤ 1 / 2 := hfl.le ⟨1, -1, by norm_num, by norm_num⟩ (by linarith)
  linarith

/-- A generator constructed again with the same seed does not give the same numbers again: the second
number of a pair belongs to no generator. -/
theorem C88_fails_reproducible (fl : ℝ → ℝ) (hfl : RoundsToNearest fl) :
    ∃ lib, InRange lib ∧ ∃ fuel a b s, a ≠ b ∧
      run fl lib fuel [.construct 7, .gaussian 1 0, .construct 7, .gaussian 1 0] fresh =
        some ([a, b], s) := by
  obtain ⟨h1, h2, h3⟩ := lib2_point hfl (construct 7 fresh) rfl
  have h0 := point_pos hfl lib2_inRange (construct 7 fresh)
  obtain ⟨f, hf, hp⟩ := factor_pos hfl h0 h3
  have hloop : loop fl lib2 1 (construct 7 fresh) = some (point fl lib2 (construct 7 fresh)) := by
    rw [loop, if_neg (not_le.2 h3)]
  have e : gaussian fl lib2 1 1 0 (construct 7 fresh) = some
      (placed fl 1 0 (scaled fl (point fl lib2 (construct 7 fresh)).1.x1 (some f)),
        { (point fl lib2 (construct 7 fresh)).2 with
          last := some (scaled fl (point fl lib2 (construct 7 fresh)).1.x2 (some f)) }) := by
    unfold gaussian
    rw [hloop]
    simp only [construct, fresh] at hf ⊢
    rw [hf]
  refine ⟨lib2, lib2_inRange, 1, placed fl 1 0 (scaled fl (point fl lib2 (construct 7 fresh)).1.x1 (some f)),
    placed fl 1 0 (scaled fl (point fl lib2 (construct 7 fresh)).1.x2 (some f)),
    { construct 7 (point fl lib2 (construct 7 fresh)).2 with last := none }, ?_, ?_⟩
  · simp only [placed, scaled, Option.map_some, ne_eq, Option.some.injEq, mul_one, zero_add]
    have a1 := fl_pos hfl (fl_pos hfl (fl_pos hfl (mul_pos h1 hp)))
    have a2 := fl_neg hfl (fl_neg hfl (fl_neg hfl (mul_neg_of_neg_of_pos h2 hp)))
    intro h
    rw [h] at a1
    exact absurd a1 (not_lt.2 a2.le)
  · simp only [run]
    rw [e]
    simp only [gaussian, construct, Option.map_some]

/-- A second generator takes over the first: the number drawn from the first one after the second was
constructed is the first number of the second one's seed. -/
theorem C88_fails_independent (fl : ℝ → ℝ) (lib : Lib) (fuel seed seed' : Nat) (s : World) :
    (run fl lib fuel [.construct seed, .construct seed', .uniform] s).map Prod.fst =
      (run fl lib fuel [.construct seed', .uniform] s).map Prod.fst := rfl

/-- Drawing from a second generator changes the numbers of the first. -/
theorem C88_fails_interference : ∃ lib, InRange lib ∧ ∃ a b c s s', b ≠ c ∧
    run (fun x => x) lib 0 [.construct 1, .uniform] fresh = some ([some c], s) ∧
    run (fun x => x) lib 0 [.construct 1, .uniform, .uniform] fresh = some ([some a, some b], s') := by
  refine ⟨fun _ i => if i = 0 then 0 else randMax, fun _ i => by simp only; split <;> simp, _, _, _, _, _,
    ?_, rfl, rfl⟩
  simp [uniform, rand, construct, randMax]

/-- With integers, `uniform(range)` gives `-range` only, and `range` for the largest number of `rand`. -/
theorem C88_fails_uniform_int (lib : Lib) (hlib : InRange lib) (range : Int) (s : World) :
    (uniformInInt lib range s).1 = if lib s.seed s.drawn = randMax then range else -range := by
  have h := hlib s.seed s.drawn
  unfold uniformInInt uniformInt rand
  split
  · rename_i e
    simp [e, randMax]
  · rename_i e
    have : Int.tdiv (lib s.seed s.drawn : Int) (randMax : Int) = 0 :=
      Int.tdiv_eq_zero_of_lt (by omega) (by omega)
    simp [this]

/-- With integers, `gaussian` never returns. -/
theorem C88_fails_gaussian_int (lib : Lib) (fuel : Nat) (s : World) : loopInt lib fuel s = none := by
  induction fuel generalizing s with
  | zero => rfl
  | succ n ih =>
    rw [loopInt, if_pos, ih]
    simp only [pointInt]
    generalize (uniformInt lib s).1 = a
    generalize (uniformInt lib (uniformInt lib s).2).1 = b
    have h1 : ∀ a : Int, 1 ≤ (2 * a - 1) * (2 * a - 1) := fun a => by
      rcases le_or_gt a 0 with h | h <;> nlinarith
    have := h1 a
    have := h1 b
    omega

private theorem single_self {fl : ℝ → ℝ} (hfl : RoundsToSingle fl) {x : ℝ} (h : IsSingle x) :
    fl x = x := by
  have h1 := (hfl x).2 x h
  rw [sub_self, abs_zero] at h1
  have := abs_nonpos_iff.1 h1
  linarith

private theorem single_max {fl : ℝ → ℝ} (hfl : RoundsToSingle fl) : fl randMax = 2147483648 := by
  have h1 := (hfl randMax).2 2147483648 ⟨1, 31, by norm_num, by norm_num⟩
  obtain ⟨m, e, hm, hx⟩ := (hfl randMax).1
  have h2 : |(2147483648 : ℝ) - randMax| = 1 := by unfold randMax; norm_num
  rw [h2, abs_le] at h1
  rw [hx] at h1 ⊢
  have hp : (0 : ℝ) < 2 ^ e := by positivity
  have hM : (randMax : ℝ) = 2147483647 := by unfold randMax; norm_num
  rw [hM] at h1
  have he : 7 ≤ e := by
    by_contra hn
    have h3 : (2 : ℝ) ^ e ≤ 2 ^ (6 : ℤ) := zpow_le_zpow_right₀ (by norm_num) (by omega)
    have h4 : (m : ℝ) < 2 ^ 24 := by
      have := (abs_lt.1 hm).2
      exact_mod_cast this
    have h5 : (m : ℝ) * 2 ^ e ≤ 2 ^ 24 * 2 ^ e := mul_le_mul_of_nonneg_right h4.le hp.le
    norm_num at h3 h5
    linarith
  obtain ⟨j, rfl⟩ : ∃ j : ℕ, e = 7 + j := ⟨(e - 7).toNat, by omega⟩
  have h6 : (m : ℝ) * 2 ^ (7 + (j : ℤ)) = ((m * 2 ^ j : ℤ) : ℝ) * 128 := by
    rw [zpow_add₀ (by norm_num)]
    push_cast
    norm_num
    ring
  rw [h6] at h1 ⊢
  generalize m * 2 ^ j = n at h1 ⊢
  have h7 : ((16777215 : ℤ) : ℝ) < (n : ℝ) := by push_cast; linarith
  have h8 : (n : ℝ) < ((16777217 : ℤ) : ℝ) := by push_cast; linarith
  rw [Int.cast_lt] at h7 h8
  rw [show n = 16777216 by omega]
  norm_num

/-- In single precision `RAND_MAX` is rounded to `RAND_MAX + 1`, the number `2 ^ 30` becomes one half, and
with two of them in a row the result is NaN. -/
theorem C88_fails_single (fl : ℝ → ℝ) (hfl : RoundsToSingle fl) :
    ∃ lib, InRange lib ∧ ∃ s, run fl lib 1 [.gaussian 1 0] fresh = some ([none], s) := by
  have h1 := single_max hfl
  have h2 : fl 1073741824 = 1073741824 := single_self hfl ⟨1, 30, by norm_num, by norm_num⟩
  have h3 : fl (1 / 2) = 1 / 2 := single_self hfl ⟨1, -1, by norm_num, by norm_num⟩
  have h4 : fl 1 = 1 := single_self hfl ⟨1, 0, by norm_num, by norm_num⟩
  have h5 : fl 0 = 0 := single_self hfl ⟨0, 0, by norm_num, by norm_num⟩
  refine ⟨fun _ _ => 1073741824, fun _ _ => by unfold randMax; norm_num, ?_⟩
  have hu : ∀ s, (uniform fl (fun _ _ => 1073741824) s).1 = 1 / 2 := by
    intro s
    simp only [uniform, rand]
    rw [h1]
    norm_num
    rw [h2]
    norm_num
    simpa using h3
  have hc : ∀ s, (coordinate fl (fun _ _ => 1073741824) s).1 = 0 := by
    intro s
    simp only [coordinate, hu]
    norm_num
    rw [h4]
    simpa using h5
  have hw : ∀ s, (point fl (fun _ _ => 1073741824) s).1.w = 0 := by
    intro s
    simp [point, hc, h5]
  have hl : loop fl (fun _ _ => 1073741824) 1 fresh = some (point fl (fun _ _ => 1073741824) fresh) := by
    rw [loop, if_neg (by rw [hw]; norm_num)]
  have hf : ∀ y, factor fl (point fl (fun _ _ => 1073741824) y).1.w = none := fun y => if_pos (hw y)
  have hg : gaussian fl (fun _ _ => 1073741824) 1 1 0 fresh = some (none,
      { (point fl (fun _ _ => 1073741824) fresh).2 with last := some none }) := by
    unfold gaussian
    rw [hl]
    simp only [fresh] at hf ⊢
    simp only [hf, scaled, placed, Option.map_none]
  refine ⟨{ (point fl (fun _ _ => 1073741824) fresh).2 with last := some none }, ?_⟩
  simp only [run]
  rw [hg]
  simp only [Option.map_some]

/-- There is such a rounding. -/
example : ∃ fl, RoundsToSingle fl := ⟨_, round24_nearest⟩

end Ecl.Props
