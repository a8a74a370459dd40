import Verif.Model.SmoothLinearSpline
import Verif.Lemmas.CubicSpline
import Verif.Props.C52_C53_Polynomial
import Verif.Props.C55_Extrema

/-! # Smooth linear splines: corners, joins -/
set_option autoImplicit false
set_option linter.unusedSimpArgs false

namespace Ecl.SmoothLinear
open Ecl Ecl.Poly Ecl.CubicSpline Ecl.Glue Ecl.Spec Set

theorem hasDerivAt_eval (n : ℕ) (c : Coeffs ℝ) (x : ℝ) :
    HasDerivAt (fun x => eval n c x) (derivativeAt n c x) x := by
  have h := (Spec.toPoly n c).hasDerivAt x
  rw [← derivativeAt_eq] at h
  have e : (fun x => (Spec.toPoly n c).eval x) = fun x => eval n c x := by
    funext x; rw [eval_toPoly]
  rwa [e] at h

theorem hasDerivAt_derivativeAt (n : ℕ) (c : Coeffs ℝ) (x : ℝ) :
    HasDerivAt (fun x => derivativeAt n c x) (dderivativeAt n c x) x := by
  have h := (Spec.toPoly n c).derivative.hasDerivAt x
  rw [← dderivativeAt_eq] at h
  have e : (fun x => (Spec.toPoly n c).derivative.eval x) = fun x => derivativeAt n c x := by
    funext x; rw [derivativeAt_eq]
  rwa [e] at h

theorem continuous_dderivativeAt (n : ℕ) (c : Coeffs ℝ) : Continuous (fun x => dderivativeAt n c x) := by
  have e : (fun x => (Spec.toPoly n c).derivative.derivative.eval x) = fun x => dderivativeAt n c x := by
    funext x; rw [dderivativeAt_eq]
  rw [← e]; exact (Spec.toPoly n c).derivative.derivative.continuous

theorem line_eval (c : Coeffs ℝ) (x : ℝ) :
    eval 1 c x = c 0 + c 1 * x ∧ derivativeAt 1 c x = c 1 ∧ dderivativeAt 1 c x = 0 := by
  refine ⟨by simp [eval, evalLoop], ?_, ?_⟩
  · simp [derivativeAt, derivative, eval, evalLoop]
  · simp [dderivativeAt]

theorem lineAt_ends {x y : ℕ → ℝ} {i : ℕ} (h : x i < x (i + 1)) :
    eval 1 (lineAt x y i) (x i) = y i ∧ eval 1 (lineAt x y i) (x (i + 1)) = y (i + 1) := by
  have hd : x (i + 1) - x i ≠ 0 := (sub_pos.2 h).ne'
  unfold lineAt linearInterpolation
  constructor <;> simp [eval, evalLoop, ofList] <;> field_simp <;> ring

/-- What a finished corner is: it spans an interval around the waypoint that leaves room for its
neighbours, joins both lines smoothly, and keeps the bound. -/
structure Good (x y : ℕ → ℝ) (amax : ℝ) (n i : ℕ) (c : Corner) : Prop where
  lo : (if i = 1 then x (i - 1) else (x (i - 1) + x i) / 2) ≤ c.left
  mid_left : c.left ≤ x i
  mid_right : x i ≤ c.right
  hi : c.right ≤ (if i = n - 1 then x (i + 1) else (x i + x (i + 1)) / 2)
  v_left : eval 1 (lineAt x y (i - 1)) c.left = eval 5 c.poly c.left
  s_left : derivativeAt 1 (lineAt x y (i - 1)) c.left = derivativeAt 5 c.poly c.left
  c_left : dderivativeAt 5 c.poly c.left = 0
  v_right : eval 5 c.poly c.right = eval 1 (lineAt x y i) c.right
  s_right : derivativeAt 5 c.poly c.right = derivativeAt 1 (lineAt x y i) c.right
  c_right : dderivativeAt 5 c.poly c.right = 0
  bound : ∀ t ∈ Icc c.left c.right, |dderivativeAt 5 c.poly t| ≤ |amax|

theorem bound_of_within {amax xl xr : ℝ} {c : Coeffs ℝ} (h : xl ≤ xr) (hw : Within amax xl xr c) :
    ∀ t ∈ Icc xl xr, |dderivativeAt 5 c t| ≤ |amax| := by
  intro t ht
  have h1 := (Props.C55_maximum_cubic (derivative 4 (derivative 5 c)) xl xr h).2 ⟨t, ht, rfl⟩
  have h2 := (Props.C55_minimum_cubic (derivative 4 (derivative 5 c)) xl xr h).2 ⟨t, ht, rfl⟩
  have e : dderivativeAt 5 c t = eval 3 (derivative 4 (derivative 5 c)) t := rfl
  rw [e]
  have a1 := abs_lt.1 hw.1
  have a2 := abs_lt.1 hw.2
  simp only at h1 h2
  rw [abs_le]
  constructor <;> linarith

theorem leftEnd_bounds {x : ℕ → ℝ} {i j : ℕ} (h : x (i - 1) < x i) (hj : 1 ≤ j) (hj5 : j ≤ 5) :
    (if i = 1 then x (i - 1) else (x (i - 1) + x i) / 2) ≤ leftEnd x i j ∧ leftEnd x i j < x i := by
  have h1 : (1 : ℝ) ≤ j := by exact_mod_cast hj
  have h2 : (j : ℝ) ≤ 5 := by exact_mod_cast hj5
  unfold leftEnd
  split <;> constructor <;> nlinarith

theorem rightEnd_bounds {x : ℕ → ℝ} {n i j : ℕ} (h : x i < x (i + 1)) (hj : 1 ≤ j) (hj5 : j ≤ 5) :
    rightEnd x n i j ≤ (if i = n - 1 then x (i + 1) else (x i + x (i + 1)) / 2) ∧ x i < rightEnd x n i j := by
  have h1 : (1 : ℝ) ≤ j := by exact_mod_cast hj
  have h2 : (j : ℝ) ≤ 5 := by exact_mod_cast hj5
  unfold rightEnd
  split <;> constructor <;> nlinarith

/-- The quintic of every attempt exists and joins both lines. -/
theorem attempt_spec {x : ℕ → ℝ} (y : ℕ → ℝ) (n : ℕ) {i j : ℕ} (h1 : x (i - 1) < x i) (h2 : x i < x (i + 1))
    (hj : 1 ≤ j) (hj5 : j ≤ 5) :
    ∃ c, attempt x y n i j = .ok c ∧ ∀ amax, Within amax (leftEnd x i j) (rightEnd x n i j) c →
      Good x y amax n i { left := leftEnd x i j, right := rightEnd x n i j, poly := c } := by
  have hl := leftEnd_bounds (i := i) h1 hj hj5
  have hr := rightEnd_bounds (n := n) (i := i) h2 hj hj5
  have hlt : leftEnd x i j < rightEnd x n i j := by linarith [hl.2, hr.2]
  obtain ⟨c, hc, e1, e2, e3, e4, e5, e6⟩ := Props.C53_quintic (leftEnd x i j)
    (eval 1 (lineAt x y (i - 1)) (leftEnd x i j)) (derivativeAt 1 (lineAt x y (i - 1)) (leftEnd x i j)) 0
    (rightEnd x n i j) (eval 1 (lineAt x y i) (rightEnd x n i j))
    (derivativeAt 1 (lineAt x y i) (rightEnd x n i j)) 0 hlt.ne
  exact ⟨c, hc, fun amax hw => ⟨hl.1, hl.2.le, hr.2.le, hr.1, e1.symm, e2.symm, e3, e4, e5, e6,
    bound_of_within hlt.le hw⟩⟩

theorem tries_spec {x : ℕ → ℝ} (y : ℕ → ℝ) (amax : ℝ) (n : ℕ) {i : ℕ} (h1 : x (i - 1) < x i) (h2 : x i < x (i + 1)) :
    ∀ (left j : ℕ), 1 ≤ j → left + j ≤ 6 →
      (∃ c, tries x y amax n i left j = .ok c ∧ Good x y amax n i c) ∨
      tries x y amax n i left j = .throw .constructorError := by
  intro left
  induction left with
  | zero => intro j _ _; exact Or.inr rfl
  | succ left ih =>
    intro j hj hle
    obtain ⟨c, hc, hg⟩ := attempt_spec y n h1 h2 hj (by omega)
    rw [tries, hc]
    simp only [Outcome.bind]
    by_cases hw : Within amax (leftEnd x i j) (rightEnd x n i j) c
    · rw [if_pos hw]; exact Or.inl ⟨_, rfl, hg amax hw⟩
    · rw [if_neg hw]; exact ih (j + 1) (by omega) (by omega)

theorem straight {x y : ℕ → ℝ} {amax : ℝ} {n i : ℕ} (hi : 1 ≤ i) (h1 : x (i - 1) < x i) (h2 : x i < x (i + 1))
    (he : lineAt x y (i - 1) 1 = lineAt x y i 1) :
    Good x y amax n i { left := x i, right := x i, poly := ofList [lineAt x y (i - 1) 0, lineAt x y (i - 1) 1, 0, 0, 0, 0] } := by
  obtain ⟨k, rfl⟩ : ∃ k, i = k + 1 := ⟨i - 1, by omega⟩
  rw [Nat.add_sub_cancel] at h1 he ⊢
  have hv := (lineAt_ends (y := y) h1).2
  have hv' := (lineAt_ends (y := y) h2).1
  have q1 : ∀ (a b t : ℝ), eval 5 (ofList [a, b, 0, 0, 0, 0]) t = a + b * t := by
    intro a b t; simp [eval, evalLoop, ofList]
  have q2 : ∀ (a b t : ℝ), derivativeAt 5 (ofList [a, b, 0, 0, 0, 0]) t = b := by
    intro a b t; simp [derivativeAt, derivative, eval, evalLoop, ofList]
  have q3 : ∀ (a b t : ℝ), dderivativeAt 5 (ofList [a, b, 0, 0, 0, 0]) t = 0 := by
    intro a b t; simp [dderivativeAt, derivative, eval, evalLoop, ofList]
  have l := line_eval (lineAt x y k)
  refine ⟨?_, le_refl _, le_refl _, ?_, ?_, ?_, q3 _ _ _, ?_, ?_, q3 _ _ _, ?_⟩
  · simp only [Nat.add_sub_cancel]; split <;> linarith
  · show x (k + 1) ≤ _
    split <;> linarith
  · simp only [Nat.add_sub_cancel]
    rw [q1, (l _).1]
  · simp only [Nat.add_sub_cancel]
    rw [q2, (l _).2.1]
  · simp only
    rw [q1, hv', ← hv, (l _).1]
  · simp only
    rw [q2, (line_eval _ _).2.1, he]
  · intro t _
    simp only
    rw [q3, abs_zero]
    exact abs_nonneg _

theorem corner_spec {x : ℕ → ℝ} (y : ℕ → ℝ) (amax : ℝ) (n : ℕ) {i : ℕ} (hi : 1 ≤ i) (h1 : x (i - 1) < x i)
    (h2 : x i < x (i + 1)) :
    (∃ c, corner x y amax n i = .ok c ∧ Good x y amax n i c) ∨
    corner x y amax n i = .throw .constructorError := by
  unfold corner
  simp only
  split
  · rename_i he
    exact Or.inl ⟨_, rfl, straight hi h1 h2 he⟩
  · exact tries_spec y amax n h1 h2 5 1 (by omega) (by omega)

theorem cornerLoop_spec {x : ℕ → ℝ} (y : ℕ → ℝ) (amax : ℝ) (n : ℕ) (hk : Knots x n) :
    ∀ (left i : ℕ), 1 ≤ i → i + left = n →
      (∃ cs, cornerLoop x y amax n left i = .ok cs ∧ cs.length = left ∧
        ∀ (k : ℕ) (h : k < cs.length), Good x y amax n (i + k) cs[k]) ∨
      cornerLoop x y amax n left i = .throw .constructorError := by
  intro left
  induction left with
  | zero =>
    intro i _ _
    exact Or.inl ⟨[], rfl, rfl, fun k h => by simp at h⟩
  | succ left ih =>
    intro i hi hn
    have h1 := hk (i - 1) (by omega)
    rw [Nat.sub_add_cancel hi] at h1
    rcases corner_spec y amax n hi h1 (hk i (by omega)) with ⟨c, hc, hg⟩ | hc
    · rcases ih (i + 1) (by omega) (by omega) with ⟨cs, h3, h4, h5⟩ | h3
      · left
        refine ⟨c :: cs, by rw [cornerLoop, hc]; simp only [Outcome.bind]; rw [h3], by simp [h4], ?_⟩
        intro k h
        cases k with
        | zero => exact hg
        | succ k =>
          have := h5 k (by simpa using h)
          rw [show i + 1 + k = i + (k + 1) by omega] at this
          simpa using this
      · right; rw [cornerLoop, hc]; simp only [Outcome.bind]; rw [h3]
    · right; rw [cornerLoop, hc]; rfl

/-- With a large enough bound no corner fails. -/
theorem cornerLoop_large {x : ℕ → ℝ} (y : ℕ → ℝ) (n : ℕ) (hk : Knots x n) :
    ∀ (left i : ℕ), 1 ≤ i → i + left = n →
      ∃ A : ℝ, ∀ amax, A < |amax| → ∃ cs, cornerLoop x y amax n left i = .ok cs := by
  intro left
  induction left with
  | zero => intro i _ _; exact ⟨0, fun _ _ => ⟨[], rfl⟩⟩
  | succ left ih =>
    intro i hi hn
    have h1 := hk (i - 1) (by omega)
    rw [Nat.sub_add_cancel hi] at h1
    obtain ⟨A, hA⟩ := ih (i + 1) (by omega) (by omega)
    obtain ⟨c, hc, -⟩ := attempt_spec y n h1 (hk i (by omega)) (le_refl 1) (by omega)
    refine ⟨max A (max |maximumCubic (leftEnd x i 1) (rightEnd x n i 1) (derivative 4 (derivative 5 c))|
      |minimumCubic (leftEnd x i 1) (rightEnd x n i 1) (derivative 4 (derivative 5 c))|), fun amax ha => ?_⟩
    rw [max_lt_iff, max_lt_iff] at ha
    obtain ⟨cs, hcs⟩ := hA amax ha.1
    have hcorner : ∃ c', corner x y amax n i = .ok c' := by
      unfold corner
      simp only
      split
      · exact ⟨_, rfl⟩
      · rw [tries, hc]
        simp only [Outcome.bind]
        rw [if_pos (show Within amax (leftEnd x i 1) (rightEnd x n i 1) c from ha.2)]
        exact ⟨_, rfl⟩
    obtain ⟨c', hc'⟩ := hcorner
    exact ⟨c' :: cs, by rw [cornerLoop, hc']; simp only [Outcome.bind]; rw [hcs]⟩

/-! ## The domain -/

theorem flat_get : ∀ (cs : List Corner) (k : ℕ) (h : k < cs.length),
    (cs.flatMap fun c => [c.left, c.right])[2 * k]? = some cs[k].left ∧
    (cs.flatMap fun c => [c.left, c.right])[2 * k + 1]? = some cs[k].right := by
  intro cs
  induction cs with
  | nil => intro k h; simp at h
  | cons c cs ih =>
    intro k h
    cases k with
    | zero => simp
    | succ k =>
      have := ih k (by simpa using h)
      rw [List.flatMap_cons]
      rw [List.getElem?_append_right (by simp), List.getElem?_append_right (by simp; omega)]
      simpa [show 2 * (k + 1) - 2 = 2 * k by omega, show 2 * (k + 1) + 1 - 2 = 2 * k + 1 by omega] using this

theorem flat_length (cs : List Corner) : (cs.flatMap fun c => [c.left, c.right]).length = 2 * cs.length := by
  induction cs with
  | nil => rfl
  | cons c cs ih => rw [List.flatMap_cons, List.length_append, ih]; simp; omega

theorem domain_at (a b : ℝ) (cs : List Corner) :
    let D := at' (a :: (cs.flatMap fun c => [c.left, c.right]) ++ [b])
    D 0 = a ∧ D (2 * cs.length + 1) = b ∧
    ∀ (k : ℕ) (h : k < cs.length), D (2 * k + 1) = cs[k].left ∧ D (2 * k + 2) = cs[k].right := by
  intro D
  have hl := flat_length cs
  refine ⟨rfl, ?_, ?_⟩
  · simp only [D, at', List.getD_eq_getElem?_getD]
    rw [List.getElem?_append_right (by simp [hl])]
    simp [hl]
  · intro k h
    have := flat_get cs k h
    simp only [D, at', List.getD_eq_getElem?_getD]
    rw [List.getElem?_append_left (by simp only [List.length_cons, hl]; omega),
      List.getElem?_append_left (by simp only [List.length_cons, hl]; omega)]
    rw [List.getElem?_cons_succ, show 2 * k + 2 = 2 * k + 1 + 1 by omega, List.getElem?_cons_succ, this.1, this.2]
    exact ⟨rfl, rfl⟩

/-- The piece with a given index. -/
noncomputable def pieceOf (line quintic : Coeffs ℝ → ℝ → ℝ) (x y : ℕ → ℝ) (cs : List Corner) (k : ℕ) : ℝ → ℝ :=
  if k % 2 = 0 then line (lineAt x y (k / 2))
  else
    match cs[(k - 1) / 2]? with
    | some c => quintic c.poly
    | none => fun _ => 0

theorem pieceOf_line (line quintic : Coeffs ℝ → ℝ → ℝ) (x y : ℕ → ℝ) (cs : List Corner) (i : ℕ) :
    pieceOf line quintic x y cs (2 * i) = line (lineAt x y i) := by
  unfold pieceOf
  rw [if_pos (by omega), show 2 * i / 2 = i by omega]

theorem pieceOf_corner (line quintic : Coeffs ℝ → ℝ → ℝ) (x y : ℕ → ℝ) (cs : List Corner) (i : ℕ) (h : i < cs.length) :
    pieceOf line quintic x y cs (2 * i + 1) = quintic cs[i].poly := by
  unfold pieceOf
  rw [if_neg (by omega), show (2 * i + 1 - 1) / 2 = i by omega, List.getElem?_eq_getElem h]

/-- The pieces of a spline whose corners are all good. -/
structure Assembled (xs ys : List ℝ) (amax : ℝ) (m : ℕ) (cs : List Corner) (D : ℕ → ℝ) : Prop where
  rising : Rising D (2 * m + 1)
  first : D 0 = at' xs 0
  last : D (2 * m + 1) = at' xs (m + 1)
  jv : Joins D (2 * m) (pieceOf (fun c x => eval 1 c x) (fun c x => eval 5 c x) (at' xs) (at' ys) cs)
  jd : Joins D (2 * m) (pieceOf (fun c x => derivativeAt 1 c x) (fun c x => derivativeAt 5 c x) (at' xs) (at' ys) cs)
  jc : Joins D (2 * m) (pieceOf (fun c x => dderivativeAt 1 c x) (fun c x => dderivativeAt 5 c x) (at' xs) (at' ys) cs)

theorem assembled {xs ys : List ℝ} {amax : ℝ} {m : ℕ} {cs : List Corner} (hk : Knots (at' xs) (m + 1))
    (hlen : cs.length = m)
    (hg : ∀ (k : ℕ) (h : k < cs.length), Good (at' xs) (at' ys) amax (m + 1) (1 + k) cs[k]) :
    Assembled xs ys amax m cs (at' (at' xs 0 :: (cs.flatMap fun c => [c.left, c.right]) ++ [at' xs (m + 1)])) := by
  obtain ⟨d0, dn, dk⟩ := domain_at (at' xs 0) (at' xs (m + 1)) cs
  generalize at' (at' xs 0 :: (cs.flatMap fun c => [c.left, c.right]) ++ [at' xs (m + 1)]) = D at d0 dn dk
  rw [hlen] at dn
  subst hlen
  have hjoin : ∀ (line quintic : Coeffs ℝ → ℝ → ℝ),
      (∀ (k : ℕ) (h : k < cs.length), line (lineAt (at' xs) (at' ys) k) cs[k].left = quintic cs[k].poly cs[k].left) →
      (∀ (k : ℕ) (h : k < cs.length), quintic cs[k].poly cs[k].right = line (lineAt (at' xs) (at' ys) (k + 1)) cs[k].right) →
      Joins D (2 * cs.length) (pieceOf line quintic (at' xs) (at' ys) cs) := by
    intro line quintic h1 h2 k hk'
    rcases Nat.even_or_odd' k with ⟨i, rfl | rfl⟩
    · have hi : i < cs.length := by omega
      rw [pieceOf_line, pieceOf_corner _ _ _ _ _ _ hi, (dk i hi).1, h1 i hi]
    · have hi : i < cs.length := by omega
      rw [pieceOf_corner _ _ _ _ _ _ hi, show 2 * i + 1 + 1 = 2 * (i + 1) by omega, pieceOf_line,
        show 2 * (i + 1) = 2 * i + 2 by omega, (dk i hi).2, h2 i hi]
  refine ⟨?_, d0, dn, hjoin _ _ ?_ ?_, hjoin _ _ ?_ ?_, hjoin _ _ ?_ ?_⟩
  · intro k hk'
    rcases Nat.even_or_odd' k with ⟨i, rfl | rfl⟩
    · -- a line
      rcases Nat.lt_or_ge i cs.length with hi | hi
      · rw [(dk i hi).1]
        have g := (hg i hi).lo
        rcases Nat.eq_zero_or_pos i with h0 | h0
        · subst h0
          simp only [Nat.mul_zero] at *
          rw [d0]
          simpa using g
        · obtain ⟨j, rfl⟩ : ∃ j, i = j + 1 := ⟨i - 1, by omega⟩
          have g' := (hg j (by omega)).hi
          rw [show 2 * (j + 1) = 2 * j + 2 by omega, (dk j (by omega)).2]
          rw [if_neg (by omega)] at g g'
          rw [show 1 + (j + 1) - 1 = j + 1 by omega, show 1 + (j + 1) = j + 2 by omega] at g
          rw [show 1 + j = j + 1 by omega, show j + 1 + 1 = j + 2 by omega] at g'
          exact le_trans g' g
      · have e : i = cs.length := by omega
        subst e
        rw [dn]
        rcases Nat.eq_zero_or_pos cs.length with h0 | h0
        · rw [h0] at hk ⊢
          simp only [Nat.mul_zero]
          rw [d0]
          exact (hk 0 (by omega)).le
        · have g' := (hg (cs.length - 1) (by omega)).hi
          have e2 := (dk (cs.length - 1) (by omega)).2
          rw [show 2 * (cs.length - 1) + 2 = 2 * cs.length by omega] at e2
          rw [e2]
          rw [if_pos (by omega), show 1 + (cs.length - 1) + 1 = cs.length + 1 by omega] at g'
          exact g'
    · have hi : i < cs.length := by omega
      rw [(dk i hi).1, show 2 * i + 1 + 1 = 2 * i + 2 by omega, (dk i hi).2]
      exact le_trans (hg i hi).mid_left (hg i hi).mid_right
  · intro k h; have := (hg k h).v_left; rwa [Nat.add_sub_cancel_left] at this
  · intro k h; have := (hg k h).v_right; rwa [Nat.add_comm 1 k] at this
  · intro k h; have := (hg k h).s_left; rwa [Nat.add_sub_cancel_left] at this
  · intro k h; have := (hg k h).s_right; rwa [Nat.add_comm 1 k] at this
  · intro k h; rw [(hg k h).c_left, (line_eval _ _).2.2]
  · intro k h; rw [(hg k h).c_right, (line_eval _ _).2.2]

theorem serves_piece (mode : Mode) {xs ys : List ℝ} {m : ℕ} {cs : List Corner} (hlen : cs.length = m)
    {D : List ℝ} (hD : D.length = 2 * m + 2) (hr : Rising (at' D) (2 * m + 1)) (line quintic : Coeffs ℝ → ℝ → ℝ) :
    Serves (at' D) (2 * m)
      (fun x => (CubicSpline.segment mode D x).bind
        (withPiece mode ⟨D, (List.range (m + 1)).map (lineAt (at' xs) (at' ys)), cs.map Corner.poly⟩
          (fun c => line c x) (fun c => quintic c x)))
      (pieceOf line quintic (at' xs) (at' ys) cs) := by
  intro k hkm x hx h1 h2
  simp only
  rw [segment_spec mode hD hr hkm hx h1 h2]
  simp only [Outcome.bind, withPiece]
  rcases Nat.even_or_odd' k with ⟨i, rfl | rfl⟩
  · rw [if_pos (by omega), show 2 * i / 2 = i by omega, pieceOf_line]
    simp [List.getElem?_range (show i < m + 1 by omega)]
  · have hi : i < cs.length := by omega
    rw [if_neg (by omega), show (2 * i + 1 - 1) / 2 = i by omega, pieceOf_corner _ _ _ _ _ _ hi]
    simp [List.getElem?_eq_getElem hi]

end Ecl.SmoothLinear
