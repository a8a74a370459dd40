import Verif.Spec.Curve
import Mathlib.Analysis.Calculus.Deriv.Basic
import Mathlib.Order.Interval.Set.LinearOrder
import Mathlib.Topology.Order.OrderClosed
import Mathlib.Tactic.Linarith

/-! # Gluing functions along the knots of a spline -/
set_option autoImplicit false
set_option linter.unusedSimpArgs false

namespace Ecl.Glue
open Set

variable {t : ℕ → ℝ} {m : ℕ}

/-- Knots `t 0 < t 1 < ... < t m`. -/
def Knots (t : ℕ → ℝ) (m : ℕ) : Prop := ∀ i, i < m → t i < t (i + 1)

theorem Knots.le (h : Knots t m) : ∀ {i j : ℕ}, i ≤ j → j ≤ m → t i ≤ t j := by
  intro i j hij
  induction j, hij using Nat.le_induction with
  | base => intro _; exact le_refl _
  | succ j hij ih => intro hj; exact le_trans (ih (by omega)) (h j (by omega)).le

theorem Knots.lt (h : Knots t m) {i j : ℕ} (hij : i < j) (hj : j ≤ m) : t i < t j :=
  lt_of_lt_of_le (h i (by omega)) (h.le hij hj)

/-- Knots `t 0 ≤ t 1 ≤ ... ≤ t m`, some of which may coincide. -/
def Rising (t : ℕ → ℝ) (m : ℕ) : Prop := ∀ i, i < m → t i ≤ t (i + 1)

theorem Knots.rising (h : Knots t m) : Rising t m := fun i hi => (h i hi).le

theorem Rising.le (h : Rising t m) : ∀ {i j : ℕ}, i ≤ j → j ≤ m → t i ≤ t j := by
  intro i j hij
  induction j, hij using Nat.le_induction with
  | base => intro _; exact le_refl _
  | succ j hij ih => intro hj; exact le_trans (ih (by omega)) (h j (by omega))

theorem Rising.mono (h : Rising t (m + 1)) : Rising t m := fun i hi => h i (by omega)

theorem Icc_split (h : Rising t (m + 1)) : Icc (t 0) (t (m + 1)) = Icc (t 0) (t m) ∪ Icc (t m) (t (m + 1)) :=
  (Icc_union_Icc_eq_Icc (h.le (Nat.zero_le _) (by omega)) (h.le (by omega) (by omega))).symm

theorem hasDerivWithinAt_outside {F : ℝ → ℝ} {d : ℝ} {s : Set ℝ} {x : ℝ} (hs : IsClosed s) (hx : x ∉ s) :
    HasDerivWithinAt F d s x := by
  have : x ∉ closure s := by rwa [hs.closure_eq]
  exact HasFDerivWithinAt.of_notMem_closure this

/-- A function differentiable on every segment is differentiable on the whole interval. -/
theorem hasDeriv_glue {F G : ℝ → ℝ} : ∀ {m : ℕ}, Rising t (m + 1) →
    (∀ k, k < m + 1 → ∀ x ∈ Icc (t k) (t (k + 1)), HasDerivWithinAt F (G x) (Icc (t k) (t (k + 1))) x) →
    ∀ x ∈ Icc (t 0) (t (m + 1)), HasDerivWithinAt F (G x) (Icc (t 0) (t (m + 1))) x := by
  intro m
  induction m with
  | zero => intro _ h x hx; exact h 0 (by omega) x hx
  | succ m ih =>
    intro hk h x hx
    have hleft := ih hk.mono (fun k hk' => h k (by omega))
    have hright := h (m + 1) (by omega)
    rw [Icc_split hk] at hx ⊢
    apply HasDerivWithinAt.union
    · by_cases hx' : x ∈ Icc (t 0) (t (m + 1))
      · exact hleft x hx'
      · exact hasDerivWithinAt_outside isClosed_Icc hx'
    · by_cases hx' : x ∈ Icc (t (m + 1)) (t (m + 1 + 1))
      · exact hright x hx'
      · exact hasDerivWithinAt_outside isClosed_Icc hx'

/-- A function continuous on every segment is continuous on the whole interval. -/
theorem continuous_glue {F : ℝ → ℝ} : ∀ {m : ℕ}, Rising t (m + 1) →
    (∀ k, k < m + 1 → ContinuousOn F (Icc (t k) (t (k + 1)))) → ContinuousOn F (Icc (t 0) (t (m + 1))) := by
  intro m
  induction m with
  | zero => intro _ h; exact h 0 (by omega)
  | succ m ih =>
    intro hk h
    rw [Icc_split hk]
    exact ContinuousOn.union_of_isClosed (ih hk.mono (fun k hk' => h k (by omega))) (h (m + 1) (by omega))
      isClosed_Icc isClosed_Icc

/-- Every point of the interval is in the first segment or strictly behind the left end of some
segment. -/
theorem exists_segment (h : Rising t (m + 1)) {x : ℝ} (hx : x ∈ Icc (t 0) (t (m + 1))) :
    ∃ k, k < m + 1 ∧ x ≤ t (k + 1) ∧ (k = 0 ∨ t k < x) := by
  induction m with
  | zero => exact ⟨0, by omega, hx.2, Or.inl rfl⟩
  | succ m ih =>
    rcases le_or_gt x (t (m + 1)) with h1 | h1
    · obtain ⟨k, hk, h2, h3⟩ := ih h.mono ⟨hx.1, h1⟩
      exact ⟨k, by omega, h2, h3⟩
    · exact ⟨m + 1, by omega, hx.2, Or.inr h1⟩

end Ecl.Glue

namespace Ecl.Glue
open Set Ecl.Spec

/-- The number a successful call returns. -/
noncomputable def got (o : Outcome ℝ) : ℝ :=
  match o with
  | .ok v => v
  | _ => 0

variable {t : ℕ → ℝ} {m : ℕ}

/-- The call answers from piece `k` for arguments behind the left end of segment `k`. -/
def Serves (t : ℕ → ℝ) (m : ℕ) (call : ℝ → Outcome ℝ) (P : ℕ → ℝ → ℝ) : Prop :=
  ∀ k, k < m + 1 → ∀ x ∈ Icc (t 0) (t (m + 1)), x ≤ t (k + 1) → (k = 0 ∨ t k < x) → call x = .ok (P k x)

/-- Neighbouring pieces have the same value at their common knot. -/
def Joins (t : ℕ → ℝ) (m : ℕ) (P : ℕ → ℝ → ℝ) : Prop :=
  ∀ k, k < m → P k (t (k + 1)) = P (k + 1) (t (k + 1))

theorem Serves.on_segment {call : ℝ → Outcome ℝ} {P : ℕ → ℝ → ℝ} (hk : Rising t (m + 1))
    (h : Serves t m call P) (hj : Joins t m P) {k : ℕ} (hkm : k < m + 1) {x : ℝ}
    (hx : x ∈ Icc (t k) (t (k + 1))) : call x = .ok (P k x) := by
  have hxx : x ∈ Icc (t 0) (t (m + 1)) :=
    ⟨le_trans (hk.le (Nat.zero_le _) (by omega)) hx.1, le_trans hx.2 (hk.le (by omega) (by omega))⟩
  obtain ⟨j, hj1, hj2, hj3⟩ := exists_segment hk hxx
  rw [h j hj1 x hxx hj2 hj3]
  congr 1
  have hstep : ∀ d i, i + d < m + 1 → (∀ l, i < l → l ≤ i + d → t l = x) → P i x = P (i + d) x := by
    intro d
    induction d with
    | zero => intro i _ _; rfl
    | succ d ih =>
      intro i hi he
      have e := he (i + d + 1) (by omega) (by omega)
      have := hj (i + d) (by omega)
      rw [e] at this
      rw [ih i (by omega) (fun l h1 h2 => he l h1 (by omega)), this]
      rfl
  rcases Nat.le_total j k with hjk | hjk
  · have := hstep (k - j) j (by omega) (fun l h1 h2 => by
      have a1 := hk.le (i := j + 1) (j := l) (by omega) (by omega)
      have a2 := hk.le (i := l) (j := k) (by omega) (by omega)
      linarith [hx.1])
    rwa [show j + (k - j) = k by omega] at this
  · rcases Nat.eq_or_lt_of_le hjk with e | e
    · rw [e]
    · exfalso
      rcases hj3 with h0 | h0
      · omega
      · have := hk.le (i := k + 1) (j := j) (by omega) (by omega)
        linarith [hx.2]

theorem Serves.everywhere {call : ℝ → Outcome ℝ} {P : ℕ → ℝ → ℝ} (hk : Rising t (m + 1))
    (h : Serves t m call P) {x : ℝ} (hx : x ∈ Icc (t 0) (t (m + 1))) : call x = .ok (got (call x)) := by
  obtain ⟨k, h1, h2, h3⟩ := exists_segment hk hx
  rw [h k h1 x hx h2 h3]; rfl

theorem Serves.hasDeriv {call call' : ℝ → Outcome ℝ} {P P' : ℕ → ℝ → ℝ} (hk : Rising t (m + 1))
    (h : Serves t m call P) (h' : Serves t m call' P') (hj : Joins t m P) (hj' : Joins t m P')
    (hd : ∀ k, k < m + 1 → ∀ x, HasDerivAt (P k) (P' k x) x) :
    ∀ x ∈ Icc (t 0) (t (m + 1)),
      HasDerivWithinAt (fun x => got (call x)) (got (call' x)) (Icc (t 0) (t (m + 1))) x := by
  apply hasDeriv_glue hk
  intro k hkm x hx
  rw [h'.on_segment hk hj' hkm hx]
  refine ((hd k hkm x).hasDerivWithinAt).congr ?_ ?_
  · intro y hy
    show got (call y) = _
    rw [h.on_segment hk hj hkm hy]; rfl
  · show got (call x) = _
    rw [h.on_segment hk hj hkm hx]; rfl

theorem Serves.continuousOn {call : ℝ → Outcome ℝ} {P : ℕ → ℝ → ℝ} (hk : Rising t (m + 1))
    (h : Serves t m call P) (hj : Joins t m P) (hc : ∀ k, k < m + 1 → Continuous (P k)) :
    ContinuousOn (fun x => got (call x)) (Icc (t 0) (t (m + 1))) := by
  apply continuous_glue hk
  intro k hkm
  refine (hc k hkm).continuousOn.congr ?_
  intro y hy
  show got (call y) = _
  rw [h.on_segment hk hj hkm hy]; rfl

theorem onceSmooth_of_pieces {v d : ℝ → Outcome ℝ} {P P' : ℕ → ℝ → ℝ} (hk : Rising t (m + 1))
    (hv : Serves t m v P) (hd : Serves t m d P') (jv : Joins t m P) (jd : Joins t m P')
    (dv : ∀ k, k < m + 1 → ∀ x, HasDerivAt (P k) (P' k x) x)
    (cd : ∀ k, k < m + 1 → Continuous (P' k)) : OnceSmooth v d (t 0) (t (m + 1)) :=
  ⟨fun x => got (v x), fun x => got (d x),
    fun _ hx => ⟨hv.everywhere hk hx, hd.everywhere hk hx⟩,
    hv.hasDeriv hk hd jv jd dv, hd.continuousOn hk jd cd⟩

theorem twiceSmooth_of_pieces {v d c : ℝ → Outcome ℝ} {P P' P'' : ℕ → ℝ → ℝ} (hk : Rising t (m + 1))
    (hv : Serves t m v P) (hd : Serves t m d P') (hc : Serves t m c P'')
    (jv : Joins t m P) (jd : Joins t m P') (jc : Joins t m P'')
    (dv : ∀ k, k < m + 1 → ∀ x, HasDerivAt (P k) (P' k x) x)
    (dd : ∀ k, k < m + 1 → ∀ x, HasDerivAt (P' k) (P'' k x) x)
    (cc : ∀ k, k < m + 1 → Continuous (P'' k)) : TwiceSmooth v d c (t 0) (t (m + 1)) :=
  ⟨fun x => got (v x), fun x => got (d x), fun x => got (c x),
    fun _ hx => ⟨hv.everywhere hk hx, hd.everywhere hk hx, hc.everywhere hk hx⟩,
    hv.hasDeriv hk hd jv jd dv, hd.hasDeriv hk hc jd jc dd, hc.continuousOn hk jc cc⟩

end Ecl.Glue
