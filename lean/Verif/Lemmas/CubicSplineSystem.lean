import Verif.Model.CubicSplineFloat
import Verif.Lemmas.CubicSplineFloat
import Verif.Lemmas.CubicSpline
import Verif.Lemmas.InterpolationFloat

/-! # Second derivatives of cubic splines with rounding: distance from the exact ones -/
set_option autoImplicit false
set_option linter.unusedSimpArgs false

namespace Ecl.SplineFloat
open Ecl Ecl.Poly Ecl.Glue Ecl.Spec
open Ecl.PolyFloat (Close)
open Ecl.CubicSpline (Work)

variable {fl : ℝ → ℝ}

theorem unit_pos : (0 : ℝ) < 1 / 2 ^ 53 := by positivity
theorem unit_le : (1 : ℝ) / 2 ^ 53 ≤ 1 / 10 ^ 15 := by norm_num

theorem rel (hfl : Rounds 53 fl) (a : ℝ) : |fl a - a| ≤ 1 / 2 ^ 53 * |a| := by
  have := hfl.relative (by norm_num) a
  rwa [div_eq_mul_one_div, mul_comm] at this

theorem four {a' a A : ℝ} (h : Close 53 4 a' a A) : |a' - a| ≤ 5 * (1 / 2 ^ 53) * A :=
  h.1.trans (mul_le_mul_of_nonneg_right (by norm_num) h.nonneg)

theorem nine {a' a A : ℝ} (h : Close 53 9 a' a A) : |a' - a| ≤ 10 * (1 / 2 ^ 53) * A :=
  h.1.trans (mul_le_mul_of_nonneg_right (by norm_num) h.nonneg)

/-- A rounded difference quotient. -/
theorem ratio_close (hfl : Rounds 53 fl) (a : ℝ) {b : ℝ} (hb : b ≠ 0) :
    Close 53 4 (fl (fl a / fl b)) (a / b) |a / b| := by
  have h1 : Close 53 1 (fl a) a |a| := (Close.exact a).round hfl (by norm_num)
  have h2 : Close 53 1 (fl b) b |b| := (Close.exact b).round hfl (by norm_num)
  have := (h1.div h2 hb (PolyFloat.small 1 (by norm_num))).round hfl (by norm_num)
  rw [abs_div]; exact this.more _ (by norm_num)

theorem forward_spec (x y : ℕ → ℝ) : ∀ (left i : ℕ) (w : Work), 0 < i →
    let w' := forward fl x y left i w
    (∀ j, j < i ∨ i + left ≤ j → w'.ydd j = w.ydd j ∧ w'.u j = w.u j) ∧
    (∀ j, i ≤ j → j < i + left →
      let S := fl (fl (x j - x (j - 1)) / fl (x (j + 1) - x (j - 1)))
      let p := fl (fl (S * w'.ydd (j - 1)) + 2)
      let t := fl (fl (6 * fl (fl (fl (y (j + 1) - y j) / fl (x (j + 1) - x j)) -
        fl (fl (y j - y (j - 1)) / fl (x j - x (j - 1))))) / fl (x (j + 1) - x (j - 1)))
      w'.ydd j = fl (fl (S - 1) / p) ∧ w'.u j = fl (fl (t - fl (S * w'.u (j - 1))) / p)) := by
  intro left
  induction left with
  | zero => intro i w _; exact ⟨fun j _ => ⟨rfl, rfl⟩, fun j h1 h2 => by omega⟩
  | succ left ih =>
    intro i w hi
    have H := ih (i + 1) (forwardStep fl x y i w) (by omega)
    simp only [forward] at H ⊢
    generalize forward fl x y left (i + 1) (forwardStep fl x y i w) = w' at H ⊢
    have hother : ∀ j, j ≠ i → (forwardStep fl x y i w).ydd j = w.ydd j ∧ (forwardStep fl x y i w).u j = w.u j := by
      intro j hj
      simp [forwardStep, Function.update_of_ne hj]
    refine ⟨?_, ?_⟩
    · intro j hj
      have h1 := H.1 j (by omega)
      have h2 := hother j (by omega)
      exact ⟨h1.1.trans h2.1, h1.2.trans h2.2⟩
    · intro j h1 h2
      rcases Nat.eq_or_lt_of_le h1 with e | e
      · subst e
        have a1 := H.1 i (by omega)
        have a2 := H.1 (i - 1) (by omega)
        have a3 := hother (i - 1) (by omega)
        rw [a1.1, a1.2, a2.1, a2.2, a3.1, a3.2]
        simp [forwardStep]
      · exact H.2 j (by omega) (by omega)

theorem backward_spec (u : ℕ → ℝ) : ∀ (k : ℕ) (ydd : ℕ → ℝ),
    (∀ j, k ≤ j → backward fl u k ydd j = ydd j) ∧
    (∀ j, j < k → backward fl u k ydd j = fl (fl (ydd j * backward fl u k ydd (j + 1)) + u j)) := by
  intro k
  induction k with
  | zero => intro ydd; exact ⟨fun j _ => rfl, fun j h => by omega⟩
  | succ k ih =>
    intro ydd
    have H := ih (Function.update ydd k (fl (fl (ydd k * ydd (k + 1)) + u k)))
    rw [backward]
    refine ⟨?_, ?_⟩
    · intro j hj
      rw [H.1 j (by omega), Function.update_of_ne (by omega)]
    · intro j hj
      rcases Nat.eq_or_lt_of_le (Nat.lt_succ_iff.1 hj) with e | e
      · subst e
        rw [H.1 j (by omega), H.1 (j + 1) (by omega), Function.update_self, Function.update_of_ne (by omega)]
      · rw [H.2 j e, Function.update_of_ne (by omega)]

/-- The share of the first of two neighbouring intervals. -/
noncomputable def share (x : ℕ → ℝ) (i : ℕ) : ℝ := (x (i + 1) - x i) / (x (i + 2) - x i)

/-- The right hand side of an interior row. -/
noncomputable def rhs (x y : ℕ → ℝ) (i : ℕ) : ℝ :=
  6 * ((y (i + 2) - y (i + 1)) / (x (i + 2) - x (i + 1)) - (y (i + 1) - y i) / (x (i + 1) - x i)) / (x (i + 2) - x i)

/-- Its size. -/
noncomputable def size (x y : ℕ → ℝ) (i : ℕ) : ℝ :=
  6 * (|(y (i + 2) - y (i + 1)) / (x (i + 2) - x (i + 1))| + |(y (i + 1) - y i) / (x (i + 1) - x i)|) / (x (i + 2) - x i)

theorem rhs_close (hfl : Rounds 53 fl) {x y : ℕ → ℝ} {i : ℕ} (h1 : x i < x (i + 1)) (h2 : x (i + 1) < x (i + 2)) :
    Close 53 9 (fl (fl (6 * fl (fl (fl (y (i + 2) - y (i + 1)) / fl (x (i + 2) - x (i + 1))) -
        fl (fl (y (i + 1) - y i) / fl (x (i + 1) - x i)))) / fl (x (i + 2) - x i))) (rhs x y i) (size x y i) := by
  have hp : 1 ≤ 53 := by norm_num
  have hb : 0 < x (i + 2) - x i := by linarith
  have a := ratio_close hfl (y (i + 2) - y (i + 1)) (sub_pos.2 h2).ne'
  have b := ratio_close hfl (y (i + 1) - y i) (sub_pos.2 h1).ne'
  have g := (a.sub b).round hfl hp
  have g6 := (((Close.exact (6 : ℝ)).mul g).round hfl hp)
  have hc : Close 53 1 (fl (x (i + 2) - x i)) (x (i + 2) - x i) |x (i + 2) - x i| := (Close.exact _).round hfl hp
  have := (g6.div hc hb.ne' (PolyFloat.small 1 (by norm_num))).round hfl hp
  rw [abs_of_pos hb, abs_of_pos (by norm_num : (0 : ℝ) < 6)] at this
  exact this

/-- The rows of the system solved by the elimination with rounding. -/
theorem secondDerivatives_rows (hfl : Rounds 53 fl) {x y : ℕ → ℝ} {m : ℕ} (hk : Knots x (m + 1)) {d0 u0 qn un R : ℝ}
    (hR : 0 ≤ R) (hd : |d0| ≤ 1 / 2) (hq : |qn| ≤ 1 / 2) (hu0 : |u0| ≤ 11 / 10 * R) (hun : |un| ≤ 11 / 10 * R)
    (hsz : ∀ i, i < m → size x y i ≤ R) :
    let M := secondDerivatives fl x y (m + 2) d0 u0 qn un
    |M 0 - (d0 * M 1 + u0)| ≤ 8 * (1 / 2 ^ 53 * R) ∧ |qn * M m + M (m + 1) - un| ≤ 20 * (1 / 2 ^ 53 * R) ∧
    (∀ i, i ≤ m + 1 → |M i| ≤ 5 * R) ∧
    ∀ i, i < m → |share x i * M i + 2 * M (i + 1) + (1 - share x i) * M (i + 2) - rhs x y i| ≤
      200 * (1 / 2 ^ 53 * R) := by
  intro M
  have e1 : m + 2 - 2 = m := by omega
  have e2 : m + 2 - 1 = m + 1 := by omega
  have hM : M = secondDerivatives fl x y (m + 2) d0 u0 qn un := rfl
  unfold secondDerivatives at hM
  simp only [e1, e2] at hM
  set w0 : Work := { ydd := Function.update (fun _ => 0) 0 d0, u := Function.update (fun _ => 0) 0 u0 } with hw0
  have hF := forward_spec (fl := fl) x y m 1 w0 (by omega)
  simp only at hF
  generalize forward fl x y m 1 w0 = w at hM hF
  have hB := backward_spec (fl := fl) (Function.update w.u (m + 1) un) (m + 1)
    (Function.update w.ydd (m + 1) (fl (fl (un - fl (qn * w.u m)) / fl (fl (qn * w.ydd m) + 1))))
  rw [← hM] at hB
  have w00 : w.ydd 0 = d0 ∧ w.u 0 = u0 := by
    have := hF.1 0 (by omega)
    simpa [hw0] using this
  have hpos : ∀ j, j < m → x j < x (j + 1) ∧ x (j + 1) < x (j + 2) := fun j hj =>
    ⟨hk j (by omega), hk (j + 1) (by omega)⟩
  have hsh : ∀ j, j < m → 0 ≤ share x j ∧ share x j ≤ 1 := by
    intro j hj
    obtain ⟨h1, h2⟩ := hpos j hj
    have : 0 < x (j + 2) - x j := by linarith
    exact ⟨div_nonneg (by linarith) this.le, (div_le_one this).2 (by linarith)⟩
  have hrow : ∀ j, j < m → ∃ S t q p mm z n, Row (1 / 2 ^ 53) (share x j) S (w.ydd j) (w.u j) t q p mm
      (w.ydd (j + 1)) z n (w.u (j + 1)) ∧ |t - rhs x y j| ≤ 10 * (1 / 2 ^ 53) * R ∧ |rhs x y j| ≤ R := by
    intro j hj
    have h := hF.2 (j + 1) (by omega) (by omega)
    rw [Nat.add_sub_cancel] at h
    simp only [show j + 1 + 1 = j + 2 by omega] at h
    obtain ⟨h1, h2⟩ := hpos j hj
    have ht := rhs_close hfl (y := y) h1 h2
    have hSc := ratio_close hfl (x (j + 1) - x j) (b := x (j + 2) - x j) (by linarith)
    refine ⟨fl (fl (x (j + 1) - x j) / fl (x (j + 2) - x j)), _, _, _, _, _, _, ⟨rel hfl _, rel hfl _, rel hfl _, ?_, rel hfl _, rel hfl _, ?_, ?_⟩,
      (nine ht).trans ?_, ht.2.trans (hsz j hj)⟩
    · rw [h.1]; exact rel hfl _
    · rw [h.2]; exact rel hfl _
    · refine (four hSc).trans ?_
      have := hsh j hj
      change 5 * (1 / 2 ^ 53) * |share x j| ≤ _
      rw [abs_of_nonneg this.1]
      have h5 : (0 : ℝ) ≤ 5 * (1 / 2 ^ 53) := by positivity
      have := mul_le_mul_of_nonneg_left this.2 h5
      linarith
    · exact mul_le_mul_of_nonneg_left (hsz j hj) (by positivity)
  have hu := unit_le
  have hup := unit_pos
  have hrel : ∀ a, |fl a - a| ≤ 1 / 2 ^ 53 * |a| := rel hfl
  generalize (1 : ℝ) / 2 ^ 53 = u at hu hup hrow hrel ⊢
  have huR : 0 ≤ u * R := mul_nonneg hup.le hR
  have huR' : u * R ≤ 1 / 10 ^ 15 * R := mul_le_mul_of_nonneg_right hu hR
  have huuR : u * (u * R) ≤ 1 / 10 ^ 15 * (u * R) := mul_le_mul_of_nonneg_right hu huR
  have hbound : ∀ j, j ≤ m → |w.ydd j| ≤ 51 / 100 ∧ |w.u j| ≤ 21 / 10 * R := by
    intro j
    induction j with
    | zero => intro _; rw [w00.1, w00.2]; exact ⟨by linarith, by linarith⟩
    | succ j ih =>
      intro hj
      obtain ⟨hc, hv⟩ := ih (by omega)
      obtain ⟨S, t, q, p, mm, z, n, hr, ht, hT⟩ := hrow j (by omega)
      obtain ⟨s0, s1⟩ := hsh j (by omega)
      exact ⟨(hr.left hup hu s0 s1 hc).2.2.2.1, (hr.right hup hu s0 s1 hc hR ht hT hv).1⟩
  have hlast : |M (m + 1)| ≤ 5 * R ∧ |M (m + 1) * (qn * w.ydd m + 1) - (un - qn * w.u m)| ≤ 13 * (u * R) := by
    have h1 := hB.1 (m + 1) (by omega)
    rw [Function.update_self] at h1
    rw [h1]
    obtain ⟨hc, hv⟩ := hbound m le_rfl
    have a1 : |qn * w.ydd m| ≤ 1 / 2 * (51 / 100) := by
      rw [abs_mul]; exact mul_le_mul hq hc (abs_nonneg _) (by norm_num)
    have a2 : |qn * w.u m| ≤ 1 / 2 * (21 / 10 * R) := by
      rw [abs_mul]; exact mul_le_mul hq hv (abs_nonneg _) (by norm_num)
    have q1 : |fl (qn * w.ydd m) + 1 - (qn * w.ydd m + 1)| ≤ 255 / 1000 * u := by
      rw [add_sub_add_right_eq_sub]
      refine (hrel _).trans ?_
      have := mul_le_mul_of_nonneg_left a1 hup.le
      linarith
    have a1' := abs_le.1 a1
    have hP : |qn * w.ydd m + 1| ≤ 1255 / 1000 := abs_le.2 ⟨by linarith, by linarith⟩
    have p1 : |fl (fl (qn * w.ydd m) + 1) - (qn * w.ydd m + 1)| ≤ 2 * u :=
      (rnd hup.le (hrel _) q1 hP).trans (by nlinarith)
    have z1 : |un - fl (qn * w.u m) - (un - qn * w.u m)| ≤ 105 / 100 * (u * R) := by
      rw [sub_sub_sub_cancel_left, abs_sub_comm]
      refine (hrel _).trans ?_
      have := mul_le_mul_of_nonneg_left a2 hup.le
      linarith
    have hN : |un - qn * w.u m| ≤ 215 / 100 * R := (abs_sub _ _).trans (by linarith)
    have n1 : |fl (un - fl (qn * w.u m)) - (un - qn * w.u m)| ≤ 4 * (u * R) :=
      (rnd hup.le (hrel _) z1 hN).trans (by nlinarith)
    generalize fl (un - fl (qn * w.u m)) = n at n1 ⊢
    generalize fl (fl (qn * w.ydd m) + 1) = p at p1 ⊢
    have p1' := abs_le.1 p1
    have hp0 : 0 < p := by linarith
    have hn : |n| ≤ 216 / 100 * R := (near n1 hN).trans (by linarith)
    have v1 := quot hp0.ne' (hrel (n / p))
    generalize fl (n / p) = l at v1 ⊢
    have v2 : |l * p| ≤ |n| + u * |n| := near v1 le_rfl
    rw [abs_mul, abs_of_pos hp0] at v2
    have hun' : u * |n| ≤ 3 * (u * R) := by
      have := mul_le_mul_of_nonneg_left hn hup.le
      linarith
    have v3 : |l| ≤ 29 / 10 * R := by
      by_contra hcon
      have hcon := not_le.1 hcon
      have b1 : 29 / 10 * R * p < |l| * p := mul_lt_mul_of_pos_right hcon hp0
      have b2 : 29 / 10 * R * (7449 / 10000) ≤ 29 / 10 * R * p :=
        mul_le_mul_of_nonneg_left (by linarith) (by linarith)
      linarith
    refine ⟨by linarith, ?_⟩
    have e : l * (qn * w.ydd m + 1) - (un - qn * w.u m) =
        (l * p - n) + (n - (un - qn * w.u m)) - l * (p - (qn * w.ydd m + 1)) := by ring
    rw [e]
    refine (abs_sub _ _).trans ?_
    have b1 : |l * (p - (qn * w.ydd m + 1))| ≤ 29 / 10 * R * (2 * u) := by
      rw [abs_mul]; exact mul_le_mul v3 p1 (abs_nonneg _) (by linarith)
    have b3 := abs_add_le (l * p - n) (n - (un - qn * w.u m))
    linarith
  have hback : ∀ j, j ≤ m → |M j| ≤ 5 * R ∧ |M j - (w.ydd j * M (j + 1) + w.u j)| ≤ 8 * (u * R) := by
    have : ∀ d j, j + d = m → |M j| ≤ 5 * R ∧ |M j - (w.ydd j * M (j + 1) + w.u j)| ≤ 8 * (u * R) := by
      intro d
      induction d with
      | zero =>
        intro j hj
        have hj : j = m := by omega
        subst hj
        obtain ⟨hc, hv⟩ := hbound j le_rfl
        have := hB.2 j (by omega)
        rw [Function.update_of_ne (by omega), Function.update_of_ne (by omega)] at this
        rw [this]
        exact back hup hu hR hc hv hlast.1 (hrel _) (hrel _)
      | succ d ih =>
        intro j hj
        obtain ⟨hc, hv⟩ := hbound j (by omega)
        have := hB.2 j (by omega)
        rw [Function.update_of_ne (by omega), Function.update_of_ne (by omega)] at this
        rw [this]
        exact back hup hu hR hc hv (ih (j + 1) (by omega)).1 (hrel _) (hrel _)
    exact fun j hj => this (m - j) j (by omega)
  have hall : ∀ i, i ≤ m + 1 → |M i| ≤ 5 * R := by
    intro i hi
    rcases Nat.lt_or_ge i (m + 1) with h | h
    · exact (hback i (by omega)).1
    · rw [show i = m + 1 by omega]; exact hlast.1
  refine ⟨?_, ?_, hall, ?_⟩
  · have := (hback 0 (by omega)).2
    rwa [w00.1, w00.2] at this
  · have h1 := (hback m le_rfl).2
    have h2 := hlast.2
    have e : qn * M m + M (m + 1) - un = qn * (M m - (w.ydd m * M (m + 1) + w.u m)) +
        (M (m + 1) * (qn * w.ydd m + 1) - (un - qn * w.u m)) := by ring
    rw [e]
    refine (abs_add_le _ _).trans ?_
    rw [abs_mul]
    have := mul_le_mul hq h1 (abs_nonneg _) (by norm_num)
    linarith
  · intro i hi
    obtain ⟨hc, hv⟩ := hbound i (by omega)
    obtain ⟨S, t, q, p, mm, z, n, hr, ht, hT⟩ := hrow i (by omega)
    obtain ⟨s0, s1⟩ := hsh i (by omega)
    obtain ⟨-, b2, b3, -, b5⟩ := hr.left hup hu s0 s1 hc
    obtain ⟨-, b6⟩ := hr.right hup hu s0 s1 hc hR ht hT hv
    exact residual hup hR s0 s1 (by linarith) b3 b5 b6 (hall (i + 2) (by omega)) (hback i (by omega)).2
      (hback (i + 1) (by omega)).2

end Ecl.SplineFloat
