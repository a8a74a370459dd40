import Verif.Lemmas.SmoothLinearSpline

/-! # C59: smooth linear splines -/
set_option autoImplicit false
set_option linter.unusedSimpArgs false

namespace Ecl.Props
open Ecl Ecl.Glue Ecl.Spec Ecl.SmoothLinear
open Ecl.CubicSpline (at' knots_of_pairwise head_at last_at)

/-- **C59.** For waypoints with increasing abscissae construction either fails with a constructor error
or yields a spline that is twice continuously differentiable on the whole domain, with `derivative` and
`dderivative` as its derivatives, whose second derivative nowhere exceeds the bound, and which starts
and ends at the first and last waypoint. -/
theorem C59_smooth (mode : Mode) (xs ys : List ℝ) (amax : ℝ) (hlen : xs.length = ys.length)
    (h2 : 2 ≤ xs.length) (hinc : xs.Pairwise (· < ·)) (a b c d : ℝ) (ha : xs.head? = some a)
    (hb : xs.getLast? = some b) (hc : ys.head? = some c) (hd : ys.getLast? = some d) :
    construct xs ys amax = .throw .constructorError ∨
    ∃ s, construct xs ys amax = .ok s ∧
      TwiceSmooth (value mode s) (slope mode s) (curvature mode s) a b ∧
      (∀ x ∈ Set.Icc a b, ∃ v, curvature mode s x = .ok v ∧ |v| ≤ |amax|) ∧
      value mode s a = .ok c ∧ value mode s b = .ok d := by
  obtain ⟨m, hm⟩ : ∃ m, xs.length = m + 2 := ⟨xs.length - 2, by omega⟩
  have hk := knots_of_pairwise hinc (m := m + 1) (by omega)
  rcases cornerLoop_spec (at' ys) amax (m + 1) hk m 1 (by omega) (by omega) with ⟨cs, h1, h3, h4⟩ | h1
  · right
    have hA := assembled hk h3 h4
    have dk := (domain_at (at' xs 0) (at' xs (m + 1)) cs).2.2
    have hDl : (at' xs 0 :: (cs.flatMap fun c => [c.left, c.right]) ++ [at' xs (m + 1)]).length = 2 * m + 2 := by
      simp only [List.length_append, List.length_cons, flat_length, h3, List.length_nil]
    have hcon : construct xs ys amax = .ok
        ⟨at' xs 0 :: (cs.flatMap fun c => [c.left, c.right]) ++ [at' xs (m + 1)],
          (List.range (m + 1)).map (lineAt (at' xs) (at' ys)), cs.map Corner.poly⟩ := by
      unfold construct
      rw [if_neg (by simpa using hlen), if_neg (by omega), hm]
      simp only [show m + 2 - 1 = m + 1 by omega, show m + 1 - 1 = m by omega]
      rw [h1]; rfl
    generalize at' xs 0 :: (cs.flatMap fun c => [c.left, c.right]) ++ [at' xs (m + 1)] = D at hA dk hDl hcon
    have sv := serves_piece mode (xs := xs) (ys := ys) h3 hDl hA.rising (fun c x => Poly.eval 1 c x) (fun c x => Poly.eval 5 c x)
    have sd := serves_piece mode (xs := xs) (ys := ys) h3 hDl hA.rising (fun c x => Poly.derivativeAt 1 c x)
      (fun c x => Poly.derivativeAt 5 c x)
    have sc := serves_piece mode (xs := xs) (ys := ys) h3 hDl hA.rising (fun c x => Poly.dderivativeAt 1 c x)
      (fun c x => Poly.dderivativeAt 5 c x)
    have e0 : at' D 0 = a := by rw [hA.first, head_at ha]
    have en : at' D (2 * m + 1) = b := by rw [hA.last, last_at (m := m + 1) (by omega) hb]
    have hr := hA.rising
    refine ⟨_, hcon, ?_, ?_, ?_, ?_⟩
    · have := twiceSmooth_of_pieces hr sv sd sc hA.jv hA.jd hA.jc
        (by
          intro k hk' x
          rcases Nat.even_or_odd' k with ⟨i, rfl | rfl⟩
          · rw [pieceOf_line, pieceOf_line]; exact hasDerivAt_eval 1 _ x
          · rw [pieceOf_corner _ _ _ _ _ _ (by omega), pieceOf_corner _ _ _ _ _ _ (by omega)]
            exact hasDerivAt_eval 5 _ x)
        (by
          intro k hk' x
          rcases Nat.even_or_odd' k with ⟨i, rfl | rfl⟩
          · rw [pieceOf_line, pieceOf_line]; exact hasDerivAt_derivativeAt 1 _ x
          · rw [pieceOf_corner _ _ _ _ _ _ (by omega), pieceOf_corner _ _ _ _ _ _ (by omega)]
            exact hasDerivAt_derivativeAt 5 _ x)
        (by
          intro k hk'
          rcases Nat.even_or_odd' k with ⟨i, rfl | rfl⟩
          · rw [pieceOf_line]; exact continuous_dderivativeAt 1 _
          · rw [pieceOf_corner _ _ _ _ _ _ (by omega)]
            exact continuous_dderivativeAt 5 _)
      rw [e0, en] at this
      exact this
    · intro x hx
      rw [← e0, ← en] at hx
      obtain ⟨k, hk1, hk2, hk3⟩ := exists_segment hr hx
      refine ⟨_, sc k hk1 x hx hk2 hk3, ?_⟩
      rcases Nat.even_or_odd' k with ⟨i, rfl | rfl⟩
      · rw [pieceOf_line, (line_eval _ _).2.2, abs_zero]; exact abs_nonneg _
      · have hi : i < cs.length := by omega
        rw [pieceOf_corner _ _ _ _ _ _ hi]
        apply (h4 i hi).bound
        rw [(dk i hi).1] at hk3
        rw [show 2 * i + 1 + 1 = 2 * i + 2 by omega, (dk i hi).2] at hk2
        rcases hk3 with h | h
        · omega
        · exact ⟨h.le, hk2⟩
    · have h := sv 0 (by omega) (at' D 0) ⟨le_refl _, hr.le (by omega) (by omega)⟩ (hr 0 (by omega)) (Or.inl rfl)
      have e := pieceOf_line (fun c x => Poly.eval 1 c x) (fun c x => Poly.eval 5 c x) (at' xs) (at' ys) cs 0
      rw [Nat.mul_zero] at e
      rw [e, hA.first] at h
      simp only at h
      rw [(lineAt_ends (hk 0 (by omega))).1, head_at hc, head_at ha] at h
      exact h
    · have h := Serves.on_segment hr sv hA.jv (k := 2 * m) (by omega) (x := at' D (2 * m + 1))
        ⟨hr (2 * m) (by omega), le_refl _⟩
      rw [pieceOf_line, hA.last] at h
      rw [(lineAt_ends (hk m (by omega))).2, last_at (xs := ys) (m := m + 1) (by omega) hd,
        last_at (m := m + 1) (by omega) hb] at h
      exact h
  · left
    unfold construct
    rw [if_neg (by simpa using hlen), if_neg (by omega), hm]
    simp only [show m + 2 - 1 = m + 1 by omega, show m + 1 - 1 = m by omega]
    rw [h1]; rfl

/-- **C59.** The spline starts along the first line and ends along the last one, without acceleration. -/
theorem C59_ends (mode : Mode) (xs ys : List ℝ) (amax : ℝ) (s : Spline) (n : ℕ) (hn : xs.length = n + 2)
    (hlen : xs.length = ys.length) (hinc : xs.Pairwise (· < ·)) (h : construct xs ys amax = .ok s)
    (x0 x1 y0 y1 u v p q : ℝ) (hx0 : xs[0]? = some x0) (hx1 : xs[1]? = some x1) (hy0 : ys[0]? = some y0)
    (hy1 : ys[1]? = some y1) (hu : xs[n]? = some u) (hv : xs[n + 1]? = some v) (hp : ys[n]? = some p)
    (hq : ys[n + 1]? = some q) :
    s.domain.head? = some x0 ∧ s.domain.getLast? = some v ∧
    slope mode s x0 = .ok ((y1 - y0) / (x1 - x0)) ∧ curvature mode s x0 = .ok 0 ∧
    slope mode s v = .ok ((q - p) / (v - u)) ∧ curvature mode s v = .ok 0 := by
  have hm : xs.length = n + 2 := hn
  have hk := knots_of_pairwise hinc (m := n + 1) (by omega)
  have hat : ∀ (l : List ℝ) (i : ℕ) (a : ℝ), l[i]? = some a → at' l i = a := by
    intro l i a h'; rw [at', List.getD_eq_getElem?_getD, h']; rfl
  rcases cornerLoop_spec (at' ys) amax (n + 1) hk n 1 (by omega) (by omega) with ⟨cs, h1, h3, h4⟩ | h1
  · have hA := assembled hk h3 h4
    have hDl : (at' xs 0 :: (cs.flatMap fun c => [c.left, c.right]) ++ [at' xs (n + 1)]).length = 2 * n + 2 := by
      simp only [List.length_append, List.length_cons, flat_length, h3, List.length_nil]
    have hcon : construct xs ys amax = .ok
        ⟨at' xs 0 :: (cs.flatMap fun c => [c.left, c.right]) ++ [at' xs (n + 1)],
          (List.range (n + 1)).map (lineAt (at' xs) (at' ys)), cs.map Corner.poly⟩ := by
      unfold construct
      rw [if_neg (by simpa using hlen), if_neg (by omega), hm]
      simp only [show n + 2 - 1 = n + 1 by omega, show n + 1 - 1 = n by omega]
      rw [h1]; rfl
    rw [h] at hcon
    have hdom : s.domain.head? = some x0 ∧ s.domain.getLast? = some v := by
      rw [Outcome.ok.inj hcon]
      refine ⟨by simp [hat xs 0 x0 hx0], ?_⟩
      simp only
      rw [List.getLast?_concat, hat xs (n + 1) v hv]
    refine ⟨hdom.1, hdom.2, ?_⟩
    rw [Outcome.ok.inj hcon]
    generalize at' xs 0 :: (cs.flatMap fun c => [c.left, c.right]) ++ [at' xs (n + 1)] = D at hA hDl hcon
    have sd := serves_piece mode (xs := xs) (ys := ys) h3 hDl hA.rising (fun c x => Poly.derivativeAt 1 c x)
      (fun c x => Poly.derivativeAt 5 c x)
    have sc := serves_piece mode (xs := xs) (ys := ys) h3 hDl hA.rising (fun c x => Poly.dderivativeAt 1 c x)
      (fun c x => Poly.dderivativeAt 5 c x)
    have hr := hA.rising
    have e0 : at' D 0 = x0 := by rw [hA.first, hat xs 0 x0 hx0]
    have en : at' D (2 * n + 1) = v := by rw [hA.last, hat xs (n + 1) v hv]
    have c0 : lineAt (at' xs) (at' ys) 0 1 = (y1 - y0) / (x1 - x0) := by
      simp [lineAt, Poly.linearInterpolation, Poly.ofList, hat xs 0 x0 hx0, hat xs 1 x1 hx1, hat ys 0 y0 hy0, hat ys 1 y1 hy1]
    have cn : lineAt (at' xs) (at' ys) n 1 = (q - p) / (v - u) := by
      simp [lineAt, Poly.linearInterpolation, Poly.ofList, hat xs n u hu, hat xs (n + 1) v hv, hat ys n p hp, hat ys (n + 1) q hq]
    have a1 := Serves.on_segment hr sd hA.jd (k := 2 * 0) (by omega) (x := at' D (2 * 0)) ⟨le_refl _, hr (2 * 0) (by omega)⟩
    have a2 := Serves.on_segment hr sc hA.jc (k := 2 * 0) (by omega) (x := at' D (2 * 0)) ⟨le_refl _, hr (2 * 0) (by omega)⟩
    have a3 := Serves.on_segment hr sd hA.jd (k := 2 * n) (by omega) (x := at' D (2 * n + 1)) ⟨hr (2 * n) (by omega), le_refl _⟩
    have a4 := Serves.on_segment hr sc hA.jc (k := 2 * n) (by omega) (x := at' D (2 * n + 1)) ⟨hr (2 * n) (by omega), le_refl _⟩
    rw [pieceOf_line, Nat.mul_zero, e0] at a1 a2
    rw [pieceOf_line, en] at a3 a4
    exact ⟨a1.trans (by rw [(line_eval _ _).2.1, c0]), a2.trans (by rw [(line_eval _ _).2.2]),
      a3.trans (by rw [(line_eval _ _).2.1, cn]), a4.trans (by rw [(line_eval _ _).2.2])⟩
  · exfalso
    unfold construct at h
    rw [if_neg (by simpa using hlen), if_neg (by omega), hm] at h
    simp only [show n + 2 - 1 = n + 1 by omega, show n + 1 - 1 = n by omega] at h
    rw [h1] at h
    cases h

/-- **C59.** A large enough bound can always be met, so the first alternative is not the only one. -/
theorem C59_large_bound (xs ys : List ℝ) (hlen : xs.length = ys.length) (h2 : 2 ≤ xs.length)
    (hinc : xs.Pairwise (· < ·)) : ∃ A : ℝ, ∀ amax, A < |amax| → ∃ s, construct xs ys amax = .ok s := by
  obtain ⟨m, hm⟩ : ∃ m, xs.length = m + 2 := ⟨xs.length - 2, by omega⟩
  have hk := knots_of_pairwise hinc (m := m + 1) (by omega)
  obtain ⟨A, hA⟩ := cornerLoop_large (at' ys) (m + 1) hk m 1 (by omega) (by omega)
  refine ⟨A, fun amax ha => ?_⟩
  obtain ⟨cs, hcs⟩ := hA amax ha
  unfold construct
  rw [if_neg (by simpa using hlen), if_neg (by omega), hm]
  simp only [show m + 2 - 1 = m + 1 by omega, show m + 1 - 1 = m by omega]
  rw [hcs]
  exact ⟨_, rfl⟩

/-- **C59.** Arrays of different lengths are refused in every build. -/
theorem C59_refused (xs ys : List ℝ) (amax : ℝ) (h : xs.length ≠ ys.length) :
    construct xs ys amax = .throw .outOfRange := by
  unfold construct
  rw [if_pos h]

/-- A bend between three points is constructed for some bound, and keeps it. -/
example : ∃ amax s, construct [0, 1, 3] [2, 5, 1] amax = .ok s ∧
    ∃ v, curvature .release s 1 = .ok v ∧ |v| ≤ |amax| := by
  obtain ⟨A, hA⟩ := C59_large_bound [0, 1, 3] [2, 5, 1] rfl (by simp) (by norm_num)
  obtain ⟨s, hs⟩ := hA (|A| + 1) (by
    have := le_abs_self A
    rw [abs_of_nonneg (by positivity : (0 : ℝ) ≤ |A| + 1)]
    linarith)
  refine ⟨_, s, hs, ?_⟩
  rcases C59_smooth .release [0, 1, 3] [2, 5, 1] (|A| + 1) rfl (by simp) (by norm_num) 0 3 2 1 rfl rfl rfl rfl with h | ⟨s', h1, -, h3, -⟩
  · rw [hs] at h; cases h
  · rw [hs] at h1; cases h1
    exact h3 1 ⟨by norm_num, by norm_num⟩

/-- It starts with slope 3 and ends with slope -2. -/
example : ∃ amax s, construct [0, 1, 3] [2, 5, 1] amax = .ok s ∧
    slope .release s 0 = .ok 3 ∧ slope .release s 3 = .ok (-2) := by
  obtain ⟨A, hA⟩ := C59_large_bound [0, 1, 3] [2, 5, 1] rfl (by simp) (by norm_num)
  obtain ⟨s, hs⟩ := hA (|A| + 1) (by
    have := le_abs_self A
    rw [abs_of_nonneg (by positivity : (0 : ℝ) ≤ |A| + 1)]
    linarith)
  have := C59_ends .release [0, 1, 3] [2, 5, 1] (|A| + 1) s 1 rfl rfl (by norm_num) hs 0 1 2 5 1 3 5 1 rfl rfl rfl rfl
    rfl rfl rfl rfl
  refine ⟨_, s, hs, ?_, ?_⟩
  · rw [this.2.2.1]; norm_num
  · rw [this.2.2.2.2.1]; norm_num

end Ecl.Props
