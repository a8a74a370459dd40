import Verif.Model.LinearTrajectory
import Verif.Lemmas.Manipulator
import Verif.Props.C59_SmoothLinear

/-! # Linear trajectories: pseudo points, times, stretching -/
set_option autoImplicit false
set_option linter.unusedSimpArgs false

namespace Ecl.LinearTrajectory
open Ecl Ecl.Poly Ecl.Manip Ecl.SmoothLinear Ecl.Spec
open Ecl.CubicSpline (at')

/-! ## Intersections -/

theorem psign_cases (r : ℝ) : ((Math.psign r : ℤ) : ℝ) = 1 ∧ 0 ≤ r ∨ ((Math.psign r : ℤ) : ℝ) = -1 ∧ r < 0 := by
  unfold Math.psign
  split
  next h => exact Or.inl ⟨by norm_num, h⟩
  next h => exact Or.inr ⟨by norm_num, lt_of_not_ge h⟩

theorem not_approx {r nom : ℝ} (h : 0 < nom) :
    ¬ Math.isApprox r (-1 * ((Math.psign r : ℤ) : ℝ) * nom) ((Math.dummyDouble : ℚ) : ℝ) := by
  unfold Math.isApprox Math.dummyDouble
  rw [not_le]
  have h1 : |(-1 * ((Math.psign r : ℤ) : ℝ) * nom)| = nom := by
    rcases psign_cases r with ⟨e, -⟩ | ⟨e, -⟩ <;> rw [e] <;> simp [abs_of_pos h]
  have h2 : nom ≤ |r - -1 * ((Math.psign r : ℤ) : ℝ) * nom| := by
    rcases psign_cases r with ⟨e, hr⟩ | ⟨e, hr⟩ <;> rw [e]
    · rw [abs_of_nonneg] <;> linarith
    · rw [abs_of_neg] <;> linarith
  rw [h1]
  have h3 : min |r| nom ≤ nom := min_le_right _ _
  have h4 : min |r| nom * ((1 / 1000000000000 : ℚ) : ℝ) ≤ nom * ((1 / 1000000000000 : ℚ) : ℝ) :=
    mul_le_mul_of_nonneg_right h3 (by norm_num)
  have h5 : nom * ((1 / 1000000000000 : ℚ) : ℝ) < nom := by push_cast; linarith
  linarith

theorem intersection_of {f g : Coeffs ℝ} (h : ¬ Math.isApprox (f 1) (g 1) ((Math.dummyDouble : ℚ) : ℝ)) :
    ∃ y, intersection f g = .ok ((f 0 - g 0) / (g 1 - f 1), y) := by
  unfold intersection
  simp only
  rw [if_neg h]
  exact ⟨_, rfl⟩

theorem pre_intersection (pull a r nom : ℝ) (h : 0 < nom) :
    ∃ y, intersection (pointSlopeForm 0 a r) (pointSlopeForm pull a (-1 * ((Math.psign r : ℤ) : ℝ) * nom)) =
      .ok (nom * pull / (|r| + nom), y) := by
  obtain ⟨y, e⟩ := intersection_of (f := pointSlopeForm 0 a r)
    (g := pointSlopeForm pull a (-1 * ((Math.psign r : ℤ) : ℝ) * nom)) (not_approx h)
  refine ⟨y, e.trans (congrArg Outcome.ok (Prod.ext ?_ rfl))⟩
  show (a - r * 0 - (a - -1 * ((Math.psign r : ℤ) : ℝ) * nom * pull)) / (-1 * ((Math.psign r : ℤ) : ℝ) * nom - r) = _
  rcases psign_cases r with ⟨e, hr⟩ | ⟨e, hr⟩ <;> rw [e]
  · rw [abs_of_nonneg hr, div_eq_div_iff (by linarith) (by linarith)]; ring
  · rw [abs_of_neg hr, div_eq_div_iff (by linarith) (by linarith)]; ring

theorem post_intersection (pull a r nom : ℝ) (h : 0 < nom) :
    ∃ y, intersection (pointSlopeForm pull a r) (pointSlopeForm 0 a (-1 * ((Math.psign r : ℤ) : ℝ) * nom)) =
      .ok (|r| * pull / (|r| + nom), y) := by
  obtain ⟨y, e⟩ := intersection_of (f := pointSlopeForm pull a r)
    (g := pointSlopeForm 0 a (-1 * ((Math.psign r : ℤ) : ℝ) * nom)) (not_approx h)
  refine ⟨y, e.trans (congrArg Outcome.ok (Prod.ext ?_ rfl))⟩
  show (a - r * pull - (a - -1 * ((Math.psign r : ℤ) : ℝ) * nom * 0)) / (-1 * ((Math.psign r : ℤ) : ℝ) * nom - r) = _
  rcases psign_cases r with ⟨e, hr⟩ | ⟨e, hr⟩ <;> rw [e]
  · rw [abs_of_nonneg hr, div_eq_div_iff (by linarith) (by linarith)]; ring
  · rw [abs_of_neg hr, div_eq_div_iff (by linarith) (by linarith)]; ring

theorem preIntersect_spec (w : WayPoint) {pull : ℝ} (hp : 0 < pull) :
    ∀ (js : List ℕ) (t : ℝ), 0 < t → (∀ j ∈ js, 0 < at' w.nominal j) →
      ∃ t', preIntersect w pull js t = .ok t' ∧ 0 < t' ∧ t' ≤ t := by
  intro js
  induction js with
  | nil => intro t ht _; exact ⟨t, rfl, ht, le_refl _⟩
  | cons j js ih =>
    intro t ht hn
    have hj := hn j (by simp)
    obtain ⟨y, e⟩ := pre_intersection pull (at' w.angles j) (at' w.rates j) _ hj
    rw [preIntersect, initialTangent, e]
    simp only [Outcome.bind]
    have hx : 0 < at' w.nominal j * pull / (|at' w.rates j| + at' w.nominal j) := by
      have := abs_nonneg (at' w.rates j)
      positivity
    obtain ⟨t', h1, h2, h3⟩ := ih (if at' w.nominal j * pull / (|at' w.rates j| + at' w.nominal j) < t then
      at' w.nominal j * pull / (|at' w.rates j| + at' w.nominal j) else t) (by split <;> assumption)
      (fun k hk => hn k (by simp [hk]))
    refine ⟨t', h1, h2, h3.trans ?_⟩
    split <;> linarith

theorem postIntersect_spec (w : WayPoint) (nominal : List ℝ) {pull : ℝ} (hp : 0 < pull) :
    ∀ (js : List ℕ) (t : ℝ), 0 ≤ t → t < pull → (∀ j ∈ js, 0 < at' nominal j) →
      ∃ t', postIntersect w nominal pull js t = .ok t' ∧ 0 ≤ t' ∧ t' < pull := by
  intro js
  induction js with
  | nil => intro t ht ht' _; exact ⟨t, rfl, ht, ht'⟩
  | cons j js ih =>
    intro t ht ht' hn
    have hj := hn j (by simp)
    obtain ⟨y, e⟩ := post_intersection pull (at' w.angles j) (at' w.rates j) _ hj
    rw [postIntersect, finalTangent, e]
    simp only [Outcome.bind]
    have hr := abs_nonneg (at' w.rates j)
    have hx0 : 0 ≤ |at' w.rates j| * pull / (|at' w.rates j| + at' nominal j) := by positivity
    have hx : |at' w.rates j| * pull / (|at' w.rates j| + at' nominal j) < pull := by
      rw [div_lt_iff₀ (by linarith)]
      nlinarith
    exact ih _ (by split <;> linarith) (by split <;> linarith) (fun k hk => hn k (by simp [hk]))

/-! ## The passes -/

theorem attempts_total (amax : ℝ) (quintic : ℕ → Outcome (ℝ × ℝ × Coeffs ℝ))
    (hq : ∀ i, 1 ≤ i → ∃ q, quintic i = .ok q) :
    ∀ (left i : ℕ) (b : Bool), 1 ≤ i → ∃ b', attempts amax quintic left i b = .ok b' := by
  intro left
  induction left with
  | zero => intro i b _; exact ⟨b, rfl⟩
  | succ left ih =>
    intro i b hi
    obtain ⟨q, e⟩ := hq i hi
    rw [attempts, e]
    simp only [Outcome.bind]
    split
    · exact ⟨_, rfl⟩
    · exact ih _ _ (by omega)

theorem jointsBroken_total (amax : List ℝ) (quintic : ℕ → ℕ → Outcome (ℝ × ℝ × Coeffs ℝ))
    (hq : ∀ j i, 1 ≤ i → ∃ q, quintic j i = .ok q) :
    ∀ (js : List ℕ) (b : Bool), ∃ b', jointsBroken amax quintic js b = .ok b' := by
  intro js
  induction js with
  | nil => intro b; exact ⟨b, rfl⟩
  | cons j js ih =>
    intro b
    obtain ⟨b', e⟩ := attempts_total (at' amax j) (quintic j) (hq j) 5 1 b (le_refl 1)
    rw [jointsBroken, e]
    exact ih b'

/-- With large enough bounds no joint breaks the constraint. -/
theorem jointsBroken_large (quintic : ℕ → ℕ → Outcome (ℝ × ℝ × Coeffs ℝ))
    (hq : ∀ j i, 1 ≤ i → ∃ q, quintic j i = .ok q) :
    ∀ (js : List ℕ), ∃ A : ℝ, ∀ amax : List ℝ, (∀ j ∈ js, A < |at' amax j|) →
      jointsBroken amax quintic js false = .ok false := by
  intro js
  induction js with
  | nil => exact ⟨0, fun _ _ => rfl⟩
  | cons j js ih =>
    obtain ⟨A, hA⟩ := ih
    obtain ⟨q, e⟩ := hq j 1 (le_refl 1)
    refine ⟨max A (max |maximumCubic q.1 q.2.1 (derivative 4 (derivative 5 q.2.2))|
      |minimumCubic q.1 q.2.1 (derivative 4 (derivative 5 q.2.2))|), fun amax ha => ?_⟩
    have hj := ha j (by simp)
    rw [max_lt_iff, max_lt_iff] at hj
    rw [jointsBroken, attempts, e]
    simp only [Outcome.bind]
    rw [if_pos (show Within (at' amax j) q.1 q.2.1 q.2.2 from hj.2)]
    exact hA amax fun k hk => (max_lt_iff.1 (ha k (by simp [hk]))).1

theorem preQuintic_total (w0 w1 : WayPoint) {pull t : ℝ} (hp : 0 < pull) (ht : 0 < t) (hd : t ≤ w0.duration / 2) (j i : ℕ)
    (hi : 1 ≤ i) : ∃ q, preQuintic w0 w1 pull t j i = .ok q := by
  have h1 : (1 : ℝ) ≤ i := by exact_mod_cast hi
  obtain ⟨c, hc, -⟩ := Props.C53_quintic (t - (i : ℝ) * t / 5)
    (eval 1 (initialTangent w0 j) (t - (i : ℝ) * t / 5)) (derivativeAt 1 (initialTangent w0 j) (t - (i : ℝ) * t / 5)) 0
    (t + (i : ℝ) * (pull + w0.duration - t) / 10)
    (eval 1 (linearInterpolation t (eval 1 (initialTangent w0 j) t) (pull + w0.duration) (at' w1.angles j))
      (t + (i : ℝ) * (pull + w0.duration - t) / 10))
    (derivativeAt 1 (linearInterpolation t (eval 1 (initialTangent w0 j) t) (pull + w0.duration) (at' w1.angles j))
      (t + (i : ℝ) * (pull + w0.duration - t) / 10)) 0 (by
        have : 0 < (i : ℝ) * t := by positivity
        have : 0 < (i : ℝ) * (pull + w0.duration - t) := by
          apply mul_pos <;> linarith
        intro h
        linarith)
  unfold preQuintic
  simp only
  rw [hc]
  exact ⟨_, rfl⟩

theorem postQuintic_total (w wn : WayPoint) {pull t : ℝ} (ht : 0 ≤ t) (hp : t < pull) (hd : 0 < w.duration) (j i : ℕ)
    (hi : 1 ≤ i) : ∃ q, postQuintic w wn pull t j i = .ok q := by
  have h1 : (1 : ℝ) ≤ i := by exact_mod_cast hi
  obtain ⟨c, hc, -⟩ := Props.C53_quintic (t - (i : ℝ) * (w.duration + t) / 10)
    (eval 1 (linearInterpolation (-w.duration) (at' w.angles j) t (eval 1 (finalTangent wn pull j) t))
      (t - (i : ℝ) * (w.duration + t) / 10))
    (derivativeAt 1 (linearInterpolation (-w.duration) (at' w.angles j) t (eval 1 (finalTangent wn pull j) t))
      (t - (i : ℝ) * (w.duration + t) / 10)) 0
    (t + (i : ℝ) * (pull - t) / 5)
    (eval 1 (finalTangent wn pull j) (t + (i : ℝ) * (pull - t) / 5))
    (derivativeAt 1 (finalTangent wn pull j) (t + (i : ℝ) * (pull - t) / 5)) 0 (by
        have : 0 < (i : ℝ) * (w.duration + t) := by apply mul_pos <;> linarith
        have : 0 < (i : ℝ) * (pull - t) := by apply mul_pos <;> linarith
        intro h
        linarith)
  unfold postQuintic
  simp only
  rw [hc]
  exact ⟨_, rfl⟩

theorem preStage_spec (d : ℕ) (amax : List ℝ) (w0 w1 : WayPoint) (hd : 0 < w0.duration)
    (hn : ∀ j < d, 0 < at' w0.nominal j) {pull : ℝ} (hp : 0 < pull) :
    ∃ b t, preStage d amax w0 w1 pull = .ok (b, t) ∧ 0 < t ∧ t ≤ w0.duration / 2 := by
  obtain ⟨t, h1, h2, h3⟩ := preIntersect_spec w0 hp (List.range d) (w0.duration / 2) (by linarith)
    (fun j hj => hn j (List.mem_range.1 hj))
  obtain ⟨b, h4⟩ := jointsBroken_total amax (preQuintic w0 w1 pull t) (preQuintic_total w0 w1 hp h2 h3) (List.range d) false
  refine ⟨b, t, ?_, h2, h3⟩
  unfold preStage
  rw [h1]
  simp only [Outcome.bind]
  rw [h4]

theorem postStage_spec (d : ℕ) (amax : List ℝ) (w wn : WayPoint) (hd : 0 < w.duration)
    (hn : ∀ j < d, 0 < at' w.nominal j) {pull : ℝ} (hp : 0 < pull) :
    ∃ b t, postStage d amax w wn pull = .ok (b, t) ∧ 0 ≤ t ∧ t < pull := by
  obtain ⟨t, h1, h2, h3⟩ := postIntersect_spec wn w.nominal hp (List.range d) 0 (le_refl 0) hp
    (fun j hj => hn j (List.mem_range.1 hj))
  obtain ⟨b, h4⟩ := jointsBroken_total amax (postQuintic w wn pull t) (postQuintic_total w wn h2 h3 hd) (List.range d) false
  refine ⟨b, t, ?_, h2, h3⟩
  unfold postStage
  rw [h1]
  simp only [Outcome.bind]
  rw [h4]

/-- What the loop over the pulls ends with, for a stage that always has an outcome. -/
theorem pullLoop_spec {stage : ℝ → Outcome (Bool × ℝ)} {P : ℝ → ℝ → Prop}
    (hs : ∀ pull, 0 < pull → ∃ b t, stage pull = .ok (b, t) ∧ P pull t) (limit : ℝ) :
    ∀ (passes : ℕ) (pull : ℝ), 0 < pull →
      pullLoop stage limit passes pull = .ok none ∨
      ∃ pull' t, pullLoop stage limit passes pull = .ok (some (pull', t)) ∧ 0 < pull' ∧ P pull' t ∧
        stage pull' = .ok (false, t) := by
  intro passes
  induction passes with
  | zero => intro pull _; exact Or.inl rfl
  | succ passes ih =>
    intro pull hp
    rw [pullLoop]
    split
    · obtain ⟨b, t, e, h⟩ := hs pull hp
      rw [e]
      simp only [Outcome.bind]
      cases b with
      | true => exact ih (pull * 2) (by linarith)
      | false => exact Or.inr ⟨pull, t, by simp, hp, h, e⟩
    · exact Or.inl rfl

/-- Once the limit is out of reach further passes change nothing. -/
theorem pullLoop_more (stage : ℝ → Outcome (Bool × ℝ)) (limit : ℝ) (m : ℕ) :
    ∀ (passes : ℕ) (pull : ℝ), limit < pull * 2 ^ passes →
      pullLoop stage limit (passes + m) pull = pullLoop stage limit passes pull := by
  intro passes
  induction passes with
  | zero =>
    intro pull h
    rw [pow_zero, mul_one] at h
    rw [Nat.zero_add]
    cases m with
    | zero => rfl
    | succ m => show pullLoop stage limit (m + 1) pull = .ok none; unfold pullLoop; rw [if_neg (not_le.2 h)]
  | succ passes ih =>
    intro pull h
    rw [show passes + 1 + m = (passes + m) + 1 by omega, pullLoop, pullLoop]
    rw [ih (pull * 2) (by rw [pow_succ] at h; linarith)]

/-- The number of passes the model allows is enough: more would make no difference. -/
theorem pullLoop_passes (stage : ℝ → Outcome (Bool × ℝ)) (limit : ℝ) (m : ℕ) :
    pullLoop stage limit (⌈1000 * limit⌉₊ + 1 + m) (1 / 1000) = pull stage limit := by
  apply pullLoop_more
  have h1 : 1000 * limit ≤ (⌈1000 * limit⌉₊ : ℝ) := Nat.le_ceil _
  have h2 : ((⌈1000 * limit⌉₊ + 1 : ℕ) : ℝ) < (2 : ℝ) ^ (⌈1000 * limit⌉₊ + 1) := by
    exact_mod_cast Nat.lt_two_pow_self
  push_cast at h2
  linarith

/-! ## Times -/

theorem timesFrom_shape (post pd : ℝ) (hpost : 0 ≤ post) (hpd : 0 < pd) :
    ∀ (ds : List ℝ) (t : ℝ), ds ≠ [] → (∀ d ∈ ds, 0 < d) →
      ∃ mid u, timesFrom post pd t ds = mid ++ [u, u + pd] ∧ mid.length + 1 = ds.length ∧
        (timesFrom post pd t ds).Pairwise (· < ·) ∧ ∀ x ∈ timesFrom post pd t ds, t < x := by
  intro ds
  induction ds with
  | nil => intro t h; exact absurd rfl h
  | cons d ds ih =>
    intro t _ hpos
    have hd := hpos d (by simp)
    cases ds with
    | nil =>
      refine ⟨[], t + d + post, rfl, rfl, ?_, ?_⟩
      · simp [timesFrom, hpd]
      · intro x hx
        simp [timesFrom] at hx
        rcases hx with rfl | rfl <;> linarith
    | cons d' ds =>
      obtain ⟨mid, u, e, hl, hp, hall⟩ := ih (t + d) (by simp) (fun x hx => hpos x (by simp [List.mem_cons.1 hx]))
      rw [timesFrom]
      refine ⟨(t + d) :: mid, u, by rw [e]; rfl, by simp [hl], ?_, ?_⟩
      · exact List.pairwise_cons.2 ⟨fun x hx => hall x hx, hp⟩
      · intro x hx
        rcases List.mem_cons.1 hx with rfl | hx
        · linarith
        · have := hall x hx
          linarith

theorem times_shape {pre preD post pd : ℝ} (hpre : 0 < pre) (hpreD : 0 < preD) (hpost : 0 ≤ post) (hpd : 0 < pd)
    {ds : List ℝ} (hds : ds ≠ []) (hpos : ∀ d ∈ ds, 0 < d) :
    ∃ mid u, times pre preD post pd ds = 0 :: pre :: mid ++ [u, u + pd] ∧ mid.length + 1 = ds.length ∧
      (times pre preD post pd ds).Pairwise (· < ·) := by
  match ds, hds, hpos with
  | [d], _, hpos =>
    obtain ⟨mid, u, e, hl, hp, hall⟩ := timesFrom_shape post pd hpost hpd [d] pre (by simp) hpos
    refine ⟨mid, u, by rw [times, e]; rfl, hl, ?_⟩
    rw [times, List.pairwise_cons, List.pairwise_cons]
    refine ⟨?_, hall, hp⟩
    intro x hx
    rcases List.mem_cons.1 hx with rfl | hx
    · exact hpre
    · exact hpre.trans (hall x hx)
  | d0 :: d :: ds, _, hpos =>
    obtain ⟨mid, u, e, hl, hp, hall⟩ := timesFrom_shape post pd hpost hpd (d :: ds) (pre + preD) (by simp)
      (fun x hx => hpos x (by simp [List.mem_cons.1 hx]))
    refine ⟨(pre + preD) :: mid, u, by rw [times, e]; rfl, by simp [hl], ?_⟩
    rw [times, List.pairwise_cons, List.pairwise_cons, List.pairwise_cons]
    have h1 : ∀ x ∈ timesFrom post pd (pre + preD) (d :: ds), pre < x := fun x hx => by
      have := hall x hx
      linarith
    refine ⟨?_, ?_, hall, hp⟩
    · intro x hx
      rcases List.mem_cons.1 hx with rfl | hx
      · exact hpre
      · rcases List.mem_cons.1 hx with rfl | hx
        · linarith
        · exact hpre.trans (h1 x hx)
    · intro x hx
      rcases List.mem_cons.1 hx with rfl | hx
      · linarith
      · exact h1 x hx

theorem splineLoop_spec {xs : List ℝ} {ys : ℕ → List ℝ} {amax : List ℝ}
    (hc : ∀ j, construct xs (ys j) (at' amax j) = .throw .constructorError ∨ ∃ s, construct xs (ys j) (at' amax j) = .ok s) :
    ∀ (js : List ℕ) (done : List Spline),
      (∃ k, splineLoop xs ys amax js done = .data k) ∨
      ∃ l, splineLoop xs ys amax js done = .splines (done ++ l) ∧
        List.Forall₂ (fun j s => construct xs (ys j) (at' amax j) = .ok s) js l := by
  intro js
  induction js with
  | nil => intro done; exact Or.inr ⟨[], by simp [splineLoop], List.Forall₂.nil⟩
  | cons j js ih =>
    intro done
    rw [splineLoop]
    rcases hc j with h | ⟨s, h⟩
    · rw [h]; exact Or.inl ⟨_, rfl⟩
    · rw [h]
      simp only
      rcases ih (done ++ [s]) with h' | ⟨l, h1, h2⟩
      · exact Or.inl h'
      · exact Or.inr ⟨s :: l, by rw [h1]; simp, List.Forall₂.cons h h2⟩

/-- What `generateLinearSplines` returns, if it does. -/
structure Laid (d : ℕ) (amax : List ℝ) (w0 wn : WayPoint) (middle : List WayPoint) (l : List Spline) (xs : List ℝ)
    (pre : ℝ) (mid : List ℝ) (u pull post : ℝ) : Prop where
  eq : xs = 0 :: pre :: mid ++ [u, u + (pull * 2 - post)]
  rising : xs.Pairwise (· < ·)
  len : mid.length = middle.length
  pull_pos : 0 < pull
  post_nonneg : 0 ≤ post
  post_lt : post < pull
  pre_pos : 0 < pre
  made : List.Forall₂ (fun j s => construct xs (values w0 wn middle pre post pull j) (at' amax j) = .ok s) (List.range d) l

theorem values_length (w0 wn : WayPoint) (middle : List WayPoint) (pre post pull : ℝ) (j : ℕ) :
    (values w0 wn middle pre post pull j).length = middle.length + 4 := by
  simp [values]

theorem construct_cases {xs ys : List ℝ} (amax : ℝ) (hl : xs.length = ys.length) (h2 : 2 ≤ xs.length)
    (hr : xs.Pairwise (· < ·)) :
    construct xs ys amax = .throw .constructorError ∨ ∃ s, construct xs ys amax = .ok s := by
  obtain ⟨a, ha⟩ : ∃ a, xs.head? = some a := by
    cases xs with
    | nil => simp at h2
    | cons a l => exact ⟨a, rfl⟩
  obtain ⟨b, hb⟩ : ∃ b, xs.getLast? = some b := by
    cases h : xs.getLast? with
    | none => rw [List.getLast?_eq_none_iff] at h; simp [h] at h2
    | some b => exact ⟨b, rfl⟩
  obtain ⟨c, hc⟩ : ∃ c, ys.head? = some c := by
    cases ys with
    | nil => simp at hl; simp [hl] at h2
    | cons a l => exact ⟨a, rfl⟩
  obtain ⟨e, he⟩ : ∃ b, ys.getLast? = some b := by
    cases h : ys.getLast? with
    | none => rw [List.getLast?_eq_none_iff] at h; rw [h] at hl; simp at hl; simp [hl] at h2
    | some b => exact ⟨b, rfl⟩
  rcases Props.C59_smooth .release xs ys amax hl h2 hr a b c e ha hb hc he with h | ⟨s, h, -⟩
  · exact Or.inl h
  · exact Or.inr ⟨s, h⟩

theorem getLastD_mem (w : WayPoint) (l : List WayPoint) : (w :: l).getLastD w ∈ w :: l := by
  rw [List.getLastD_cons]
  cases l with
  | nil => simp
  | cons v l =>
    rw [List.getLastD_cons]
    have := List.getLast_mem (l := v :: l) (by simp)
    rw [List.getLastD_eq_getLast?] 
    rw [List.mem_cons]
    right
    cases h : l.getLast? with
    | none => simp
    | some x => simp [List.mem_of_getLast? h]

/-- The number of splines, and how they were made; otherwise the exception with a corner. -/
theorem generate_spec (d : ℕ) (amax : List ℝ) (w0 wn : WayPoint) (middle : List WayPoint)
    (hd : ∀ w ∈ w0 :: middle, 0 < w.duration) (hn : ∀ w ∈ w0 :: middle, ∀ j < d, 0 < at' w.nominal j) :
    (∃ k, generate d amax w0 wn middle = .data k) ∨
    ∃ l xs pre mid u pull post, generate d amax w0 wn middle = .splines l ∧ Laid d amax w0 wn middle l xs pre mid u pull post := by
  unfold generate
  simp only
  have hw0 := hd w0 (by simp)
  have hb := getLastD_mem w0 middle
  rcases pullLoop_spec (P := fun _ t => 0 < t ∧ t ≤ w0.duration / 2)
    (fun pull hp => preStage_spec d amax w0 ((middle ++ [wn]).headD wn) hw0 (hn w0 (by simp)) hp) w0.duration
    (⌈1000 * w0.duration⌉₊ + 1) (1 / 1000) (by norm_num) with h1 | ⟨pp, pre, h1, hpp, ⟨hpre, hpre2⟩, -⟩
  · left
    unfold pull
    rw [h1]
    exact ⟨0, rfl⟩
  · rcases pullLoop_spec (P := fun pull t => 0 ≤ t ∧ t < pull)
      (fun pull hp => postStage_spec d amax ((w0 :: middle).getLastD w0) wn (hd _ hb) (hn _ hb) hp)
      ((w0 :: middle).getLastD w0).duration
      (⌈1000 * ((w0 :: middle).getLastD w0).duration⌉₊ + 1) (1 / 1000) (by norm_num)
      with h2 | ⟨pull', post, h2, hpl, ⟨hpost, hpost2⟩, -⟩
    · left
      unfold pull
      rw [h1, h2]
      exact ⟨0, rfl⟩
    · unfold pull
      rw [h1, h2]
      simp only
      obtain ⟨mid, u, e, hl, hr⟩ := times_shape (pre := pre) (preD := pp * 2 + w0.duration - pre) (post := post)
        (pd := pull' * 2 - post) hpre (by linarith) hpost (by linarith) (ds := (w0 :: middle).map WayPoint.duration)
        (by simp) (by
          intro x hx
          obtain ⟨w, hw, rfl⟩ := List.mem_map.1 hx
          exact hd w hw)
      have hlen : mid.length = middle.length := by simpa using hl
      have hxl : (times pre (pp * 2 + w0.duration - pre) post (pull' * 2 - post) ((w0 :: middle).map WayPoint.duration)).length
          = middle.length + 4 := by rw [e]; simp [hlen]
      rcases splineLoop_spec (xs := times pre (pp * 2 + w0.duration - pre) post (pull' * 2 - post)
        ((w0 :: middle).map WayPoint.duration)) (ys := values w0 wn middle pre post pull') (amax := amax)
        (fun j => construct_cases _ (by rw [hxl, values_length]) (by omega) hr) (List.range d) [] with ⟨k, h⟩ | ⟨l, h, hf⟩
      · exact Or.inl ⟨k, h⟩
      · refine Or.inr ⟨l, _, pre, mid, u, pull', post, by simpa using h, e, hr, hlen, hpl, hpost, hpost2, hpre, hf⟩

/-! ## Stretching -/

/-- A waypoint after some calls: the duration may have grown, rates that were not configured may have
been set to zero. -/
structure Kept (w w' : WayPoint) : Prop where
  angles : w'.angles = w.angles
  nominal : w'.nominal = w.nominal
  longer : w.duration ≤ w'.duration
  rates : (w'.rates = w.rates ∧ w'.ratesConfigured = w.ratesConfigured) ∨
    (w.ratesConfigured = false ∧ w'.rates = List.replicate w.angles.length 0 ∧ w'.ratesConfigured = true)

theorem Kept.refl (w : WayPoint) : Kept w w := ⟨rfl, rfl, le_refl _, Or.inl ⟨rfl, rfl⟩⟩

theorem Kept.trans {a b c : WayPoint} (h1 : Kept a b) (h2 : Kept b c) : Kept a c := by
  refine ⟨h2.angles.trans h1.angles, h2.nominal.trans h1.nominal, h1.longer.trans h2.longer, ?_⟩
  rcases h1.rates with ⟨e1, e2⟩ | ⟨e1, e2, e3⟩
  · rcases h2.rates with ⟨f1, f2⟩ | ⟨f1, f2, f3⟩
    · exact Or.inl ⟨f1.trans e1, f2.trans e2⟩
    · exact Or.inr ⟨by rw [← e2, f1], by rw [f2, h1.angles], f3⟩
  · rcases h2.rates with ⟨f1, f2⟩ | ⟨f1, f2, f3⟩
    · exact Or.inr ⟨e1, f1.trans e2, f2.trans e3⟩
    · rw [e3] at f1; cases f1

theorem kept_refl (ws : List WayPoint) : List.Forall₂ Kept ws ws := List.forall₂_same.2 fun w _ => Kept.refl w

theorem kept_trans : ∀ {a b c : List WayPoint}, List.Forall₂ Kept a b → List.Forall₂ Kept b c → List.Forall₂ Kept a c := by
  intro a b c h
  induction h generalizing c with
  | nil => intro h2; exact h2
  | cons h _ ih =>
    intro h2
    cases h2 with
    | cons h' h2 => exact List.Forall₂.cons (h.trans h') (ih h2)

theorem kept_configure (w : WayPoint) : Kept w (configure w) ∧ (configure w).ratesConfigured = true := by
  unfold configure
  split
  next h => exact ⟨Kept.refl w, h⟩
  next h => exact ⟨⟨rfl, rfl, le_refl _, Or.inr ⟨by simpa using h, rfl, rfl⟩⟩, rfl⟩

theorem kept_modify {f : ℝ} (hf : 1 ≤ f) : ∀ (ws : List WayPoint) (i : ℕ),
    (∀ w : WayPoint, ws[i]? = some w → 0 ≤ w.duration) → List.Forall₂ Kept ws (ws.modify i (stretchOne f)) := by
  intro ws
  induction ws with
  | nil => intro i _; simp
  | cons w ws ih =>
    intro i h
    cases i with
    | zero =>
      rw [List.modify_zero_cons]
      have h0 := h w rfl
      refine List.Forall₂.cons ⟨rfl, rfl, ?_, Or.inl ⟨rfl, rfl⟩⟩ (kept_refl ws)
      show w.duration ≤ w.duration * f
      nlinarith
    | succ i =>
      rw [List.modify_succ_cons]
      exact List.Forall₂.cons (Kept.refl w) (ih i fun v hv => h v (by simpa using hv))

/-- Waypoints that have passed the validation and whose durations are initialised. -/
structure Ready (d : ℕ) (ws : List WayPoint) : Prop where
  two : 2 ≤ ws.length
  fits : ∀ w ∈ ws, Fits d w
  positive : ∀ (i : ℕ) (w : WayPoint), ws[i]? = some w → i + 1 < ws.length → 0 < w.duration ∧ ∀ r ∈ w.nominal, 0 < r

theorem kept_get {a b : List WayPoint} (h : List.Forall₂ Kept a b) (i : ℕ) (w' : WayPoint) (hw : b[i]? = some w') :
    ∃ w, a[i]? = some w ∧ Kept w w' := by
  induction h generalizing i with
  | nil => simp at hw
  | cons h _ ih =>
    cases i with
    | zero => simp at hw; subst hw; exact ⟨_, rfl, h⟩
    | succ i => exact ih i (by simpa using hw)

theorem Ready.kept {d : ℕ} {a b : List WayPoint} (h : Ready d a) (hk : List.Forall₂ Kept a b) : Ready d b := by
  have hl := hk.length_eq
  refine ⟨hl ▸ h.two, ?_, ?_⟩
  · intro w' hw'
    obtain ⟨i, hi, e⟩ := List.getElem_of_mem hw'
    obtain ⟨w, h1, h2⟩ := kept_get hk i w' (by rw [List.getElem?_eq_getElem hi, e])
    have hf := h.fits w (List.mem_of_getElem? h1)
    refine ⟨h2.angles ▸ hf.1, h2.nominal ▸ hf.2.1, ?_⟩
    rcases h2.rates with ⟨e1, -⟩ | ⟨-, e1, -⟩
    · rw [e1]; exact hf.2.2
    · rw [e1, List.length_replicate]; exact hf.1
  · intro i w' hw' hi
    obtain ⟨w, h1, h2⟩ := kept_get hk i w' hw'
    have := h.positive i w h1 (by rw [hl]; exact hi)
    exact ⟨this.1.trans_le h2.longer, h2.nominal ▸ this.2⟩

theorem Ready.modify {d : ℕ} {ws : List WayPoint} (h : Ready d ws) {i : ℕ} (hi : i + 1 < ws.length) {f : ℝ} (hf : 1 ≤ f) :
    List.Forall₂ Kept ws (ws.modify i (stretchOne f)) :=
  kept_modify hf ws i fun w hw => (h.positive i w hw hi).1.le

theorem kept_stretch {d : ℕ} {ws : List WayPoint} (h : Ready d ws) (k : ℕ) :
    List.Forall₂ Kept ws (stretch (ws.length - 1) k ws) := by
  have h2 := h.two
  unfold stretch
  split
  · exact h.modify (by omega) (by norm_num)
  · split
    · exact h.modify (by omega) (by norm_num)
    · split
      · exact h.modify (by omega) (by norm_num)
      · have h1 := h.modify (i := k - 2) (f := 21 / 20) (by omega) (by norm_num)
        exact kept_trans h1 ((h.kept h1).modify (by rw [← h1.length_eq]; omega) (by norm_num))

theorem exists_ends {ws : List WayPoint} (h : 2 ≤ ws.length) : ∃ w0 middle wn, ws = w0 :: middle ++ [wn] := by
  cases ws with
  | nil => simp at h
  | cons w0 rest =>
    have hr : rest ≠ [] := by rintro rfl; simp at h
    exact ⟨w0, rest.dropLast, rest.getLast hr, by rw [List.cons_append, List.dropLast_append_getLast hr]⟩

theorem configureEnds_eq (w0 wn : WayPoint) (middle : List WayPoint) :
    configureEnds (w0 :: middle ++ [wn]) = configure w0 :: middle ++ [configure wn] := by
  unfold configureEnds
  split
  · next h => simp at h
  · next h => simp at h
  · next w rest _ h =>
    simp at h
    obtain ⟨rfl, rfl⟩ := h
    simp

theorem generateFor_eq (d : ℕ) (amax : List ℝ) (w0 wn : WayPoint) (middle : List WayPoint) :
    generateFor d amax (w0 :: middle ++ [wn]) = generate d amax (configure w0) (configure wn) middle := by
  unfold generateFor
  rw [configureEnds_eq]
  cases middle with
  | nil => simp
  | cons m middle =>
    simp only [List.cons_append]
    congr 1
    · rw [← List.cons_append, List.getLastD_eq_getLast?, List.getLast?_concat]; rfl
    · rw [← List.cons_append, List.dropLast_concat]

theorem kept_configureEnds (w0 wn : WayPoint) (middle : List WayPoint) :
    List.Forall₂ Kept (w0 :: middle ++ [wn]) (configure w0 :: middle ++ [configure wn]) := by
  refine List.Forall₂.cons (kept_configure w0).1 ?_
  exact List.rel_append (kept_refl middle) (List.Forall₂.cons (kept_configure wn).1 List.Forall₂.nil)

theorem ready_generate {d : ℕ} {w0 wn : WayPoint} {middle : List WayPoint} (h : Ready d (w0 :: middle ++ [wn])) :
    (∀ w ∈ w0 :: middle, 0 < w.duration) ∧ (∀ w ∈ w0 :: middle, ∀ j < d, 0 < at' w.nominal j) := by
  have : ∀ w ∈ w0 :: middle, (0 < w.duration ∧ ∀ r ∈ w.nominal, 0 < r) ∧ Fits d w := by
    intro w hw
    obtain ⟨i, hi, e⟩ := List.getElem_of_mem hw
    refine ⟨h.positive i w ?_ (by simp at hi ⊢; omega), h.fits w (List.mem_append_left _ hw)⟩
    rw [List.getElem?_append_left hi, List.getElem?_eq_getElem hi, e]
  refine ⟨fun w hw => (this w hw).1.1, fun w hw j hj => ?_⟩
  have hl : j < w.nominal.length := by rw [(this w hw).2.2.1]; exact hj
  rw [CubicSpline.at_getElem hl]
  exact (this w hw).1.2 _ (List.getElem_mem hl)

/-- What the main loop ends with. -/
theorem constrainLoop_spec (mode : Mode) (d : ℕ) (amax : List ℝ) :
    ∀ (passes : ℕ) (ws : List WayPoint) (r : Outcome Trajectory), Ready d ws →
      constrainLoop mode d amax passes ws = some r →
      ∃ w0 middle wn l, r = finish mode (w0 :: middle ++ [wn]) l ∧ generate d amax w0 wn middle = .splines l ∧
        List.Forall₂ Kept ws (w0 :: middle ++ [wn]) ∧ w0.ratesConfigured = true ∧ wn.ratesConfigured = true := by
  intro passes
  induction passes with
  | zero => intro ws r _ h; simp [constrainLoop] at h
  | succ passes ih =>
    intro ws r hr h
    obtain ⟨w0, middle, wn, rfl⟩ := exists_ends hr.two
    have hk := kept_configureEnds w0 wn middle
    have hr' := hr.kept hk
    obtain ⟨g1, g2⟩ := ready_generate hr'
    rw [constrainLoop, generateFor_eq] at h
    rcases generate_spec d amax (configure w0) (configure wn) middle g1 g2 with ⟨k, e⟩ | ⟨l, xs, pre, mid, u, pull, post, e, -⟩
    · rw [e] at h
      simp only at h
      rw [configureEnds_eq] at h
      have hs := kept_stretch hr' k
      rw [← hk.length_eq] at hs
      obtain ⟨v0, m, vn, l, h1, h2, h3, h4⟩ := ih _ r (hr'.kept hs) h
      exact ⟨v0, m, vn, l, h1, h2, kept_trans hk (kept_trans hs h3), h4⟩
    · rw [e] at h
      simp only [Option.some.injEq] at h
      rw [configureEnds_eq] at h
      exact ⟨_, middle, _, l, h.symm, e, hk, (kept_configure w0).2, (kept_configure wn).2⟩

end Ecl.LinearTrajectory
