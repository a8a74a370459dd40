import Verif.Spec.Nan
import Mathlib.Data.List.Forall2

/-! # NaN in splines and trajectories: helper lemmas (C131) -/
set_option autoImplicit false

namespace Ecl.Nan
open Ecl Ecl.Nan.Spec

variable {F : Type} {A : Arith F} {isNan : F → Prop}

/-! ## Polynomials -/

theorem evalLoop_nan (H : Spreads A isNan) (p : Coeffs F) (x : F) :
    ∀ left i tmp value, isNan value ∨ (∃ k, i ≤ k ∧ k < i + left ∧ isNan (p k)) → isNan (evalLoop A p x left i tmp value) := by
  intro left
  induction left with
  | zero =>
    intro i tmp value h
    rcases h with h | ⟨k, h1, h2, _⟩
    · exact h
    · omega
  | succ left ih =>
    intro i tmp value h
    apply ih
    rcases h with h | ⟨k, h1, h2, h3⟩
    · exact Or.inl (H.add _ _ (Or.inl h))
    · rcases Nat.lt_or_ge i k with h4 | h4
      · exact Or.inr ⟨k, h4, by omega, h3⟩
      · have : k = i := by omega
        subst this
        exact Or.inl (H.add _ _ (Or.inr (H.mul _ _ (Or.inl h3))))

theorem eval_nan (H : Spreads A isNan) (p : Coeffs F) (x : F) (n k : ℕ) (hk : k ≤ n) (h : isNan (p k)) : isNan (eval A n p x) := by
  apply evalLoop_nan H
  rcases Nat.eq_zero_or_pos k with h0 | h0
  · subst h0; exact Or.inl h
  · exact Or.inr ⟨k, h0, by omega, h⟩

theorem shiftLoop_nan (H : Spreads A isNan) (p : Coeffs F) (s : F) :
    ∀ row j tmp c, isNan c → isNan (shiftLoop A p s row j tmp c) := by
  intro row
  induction row with
  | nil => intro j tmp c h; exact h
  | cons k row ih => intro j tmp c h; exact ih _ _ _ (H.add _ _ (Or.inl h))

theorem derivative_nan (H : Spreads A isNan) (p : Coeffs F) (k : ℕ) (h : isNan (p (k + 1))) : isNan (derivative A p k) :=
  H.mul _ _ (Or.inr h)

theorem quintic_nan (H : Spreads A isNan) (xi yi ydi yddi xf yf ydf yddf : F)
    (h : isNan yi ∨ isNan ydi ∨ isNan yf ∨ isNan ydf) : isNan (quinticInterpolation A xi yi ydi yddi xf yf ydf yddf 3) := by
  have h3 : isNan (A.div
    (A.sub (A.sub (A.mul (A.lit 20) (A.sub yf yi)) (A.mul (A.add (A.mul (A.lit 8) ydf) (A.mul (A.lit 12) ydi)) (A.sub xf xi)))
      (A.mul (A.mul (A.sub (A.mul (A.lit 3) yddi) yddf) (A.sub xf xi)) (A.sub xf xi)))
    (A.mul (A.lit 2) (A.mul (A.mul (A.sub xf xi) (A.sub xf xi)) (A.sub xf xi)))) := by
    apply H.div; left; apply H.sub; left; apply H.sub
    rcases h with h | h | h | h
    · left; exact H.mul _ _ (Or.inr (H.sub _ _ (Or.inr h)))
    · right; exact H.mul _ _ (Or.inl (H.add _ _ (Or.inr (H.mul _ _ (Or.inr h)))))
    · left; exact H.mul _ _ (Or.inr (H.sub _ _ (Or.inl h)))
    · right; exact H.mul _ _ (Or.inl (H.add _ _ (Or.inl (H.mul _ _ (Or.inr h)))))
  unfold quinticInterpolation
  split
  · exact h3
  · exact shiftLoop_nan H _ _ _ _ _ _ h3

theorem consider_nan (H : Spreads A isNan) (better : F → F → F) (hb : ∀ a b, isNan a → isNan b → isNan (better a b))
    (p : Coeffs F) (hp : ∀ x, isNan (eval A 3 p x)) (xb xe root best : F) (h : isNan best) :
    isNan (consider A better p xb xe root best) := by
  unfold consider
  split
  · exact hb _ _ (hp _) h
  · exact h

theorem extremum_nan (H : Spreads A isNan) (better : F → F → F) (hb : ∀ a b, isNan a → isNan b → isNan (better a b))
    (p : Coeffs F) (hp : ∀ x, isNan (eval A 3 p x)) (xb xe : F) : isNan (cubicExtremum A better xb xe p) := by
  have h0 := hb _ _ (hp xe) (hp xb)
  unfold cubicExtremum
  dsimp only
  split
  · exact consider_nan H better hb p hp _ _ _ _ h0
  · split
    · exact consider_nan H better hb p hp _ _ _ _ (consider_nan H better hb p hp _ _ _ _ h0)
    · exact h0

theorem within_nan (H : Spreads A isNan) (amax xl xr : F) (c : Coeffs F) (h : isNan (c 3)) : within A amax xl xr c = false := by
  have hp : ∀ x, isNan (eval A 3 (derivative A (derivative A c)) x) := fun x =>
    eval_nan H _ x 3 1 (by omega) (derivative_nan H _ 1 (derivative_nan H _ 2 h))
  have hr : ∀ a b, isNan a → isNan b → isNan (raise A a b) := by
    intro a b ha hb; unfold raise; split <;> assumption
  have e := extremum_nan H (raise A) hr _ hp xl xr
  unfold within
  simp only [H.lt _ _ (Or.inl (H.abs _ e)), Bool.false_and]

/-! ## Smooth linear splines -/

theorem line_nan (H : Spreads A isNan) (x y : ℕ → F) (i : ℕ)
    (h : isNan (x i) ∨ isNan (y i) ∨ isNan (x (i + 1)) ∨ isNan (y (i + 1))) : isNan (lineAt A x y i 1) := by
  show isNan (A.div _ _)
  apply H.div
  rcases h with h | h | h | h
  · exact Or.inr (H.sub _ _ (Or.inr h))
  · exact Or.inl (H.sub _ _ (Or.inr h))
  · exact Or.inr (H.sub _ _ (Or.inl h))
  · exact Or.inl (H.sub _ _ (Or.inl h))

theorem tries_nan (H : Spreads A isNan) (x y : ℕ → F) (amax : F) (n i : ℕ)
    (h : isNan (lineAt A x y (i - 1) 1) ∨ isNan (lineAt A x y i 1)) : ∀ left j, tries A x y amax n i left j = none := by
  intro left
  induction left with
  | zero => intro j; rfl
  | succ left ih =>
    intro j
    have : isNan (attempt A x y n i j 3) := by
      unfold attempt
      apply quintic_nan H
      rcases h with h | h
      · exact Or.inr (Or.inl (derivative_nan H _ 0 h))
      · exact Or.inr (Or.inr (Or.inr (derivative_nan H _ 0 h)))
    simp only [tries, within_nan H _ _ _ _ this, Bool.false_eq_true, if_false, ih]

theorem corner_nan (H : Spreads A isNan) (x y : ℕ → F) (amax : F) (n i : ℕ)
    (h : isNan (lineAt A x y (i - 1) 1) ∨ isNan (lineAt A x y i 1)) : corner A x y amax n i = none := by
  unfold corner
  simp only [H.eq _ _ h, Bool.false_eq_true, if_false, tries_nan H x y amax n i h]

theorem cornerLoop_none (x y : ℕ → F) (amax : F) (n : ℕ) : ∀ left i,
    (∃ k, i ≤ k ∧ k < i + left ∧ corner A x y amax n k = none) →
    ∃ m, i ≤ m ∧ m < i + left ∧ cornerLoop A x y amax n left i = .data .constructorError m := by
  intro left
  induction left with
  | zero => rintro i ⟨k, h1, h2, _⟩; omega
  | succ left ih =>
    rintro i ⟨k, h1, h2, h3⟩
    unfold cornerLoop
    cases hc : corner A x y amax n i with
    | none => exact ⟨i, le_refl _, by omega, rfl⟩
    | some c =>
      rcases Nat.eq_or_lt_of_le h1 with h4 | h4
      · subst h4; rw [h3] at hc; cases hc
      · obtain ⟨m, m1, m2, m3⟩ := ih (i + 1) ⟨k, h4, by omega, h3⟩
        exact ⟨m, by omega, by omega, by simp only [m3]⟩

theorem cornerLoop_ub (x y : ℕ → F) (amax : F) (n : ℕ) : ∀ left i, cornerLoop A x y amax n left i ≠ .ub := by
  intro left
  induction left with
  | zero => intro i h; cases h
  | succ left ih =>
    intro i h
    unfold cornerLoop at h
    cases hc : corner A x y amax n i with
    | none => rw [hc] at h; cases h
    | some c =>
      rw [hc] at h
      cases hr : cornerLoop A x y amax n left (i + 1) with
      | ok cs => rw [hr] at h; cases h
      | data e k => rw [hr] at h; cases h
      | ub => exact ih _ hr

theorem smooth_nan (H : Spreads A isNan) (xs ys : List F) (amax : F) (hl : ys.length = xs.length) (h3 : 3 ≤ xs.length)
    (h : (∃ x ∈ xs, isNan x) ∨ (∃ y ∈ ys, isNan y)) :
    ∃ k, 0 < k ∧ k + 1 < xs.length ∧ smooth A xs ys amax = .data .constructorError k := by
  have hk : ∃ k, k < xs.length ∧ (isNan (get A xs k) ∨ isNan (get A ys k)) := by
    rcases h with ⟨x, hx, hn⟩ | ⟨y, hy, hn⟩
    · obtain ⟨k, hk, e⟩ := List.mem_iff_getElem.1 hx
      exact ⟨k, hk, Or.inl (by simp [get, List.getD, hk, e, hn])⟩
    · obtain ⟨k, hk, e⟩ := List.mem_iff_getElem.1 hy
      exact ⟨k, by omega, Or.inr (by simp [get, List.getD, hk, e, hn])⟩
  obtain ⟨k, hk, hn⟩ := hk
  have hs : ∃ s, s < xs.length - 1 ∧ isNan (lineAt A (get A xs) (get A ys) s 1) := by
    rcases Nat.lt_or_ge k (xs.length - 1) with h1 | h1
    · refine ⟨k, h1, line_nan H _ _ _ ?_⟩
      rcases hn with hn | hn
      · exact Or.inl hn
      · exact Or.inr (Or.inl hn)
    · have e : k = (k - 1) + 1 := by omega
      refine ⟨k - 1, by omega, line_nan H _ _ _ ?_⟩
      rw [← e]
      rcases hn with hn | hn
      · exact Or.inr (Or.inr (Or.inl hn))
      · exact Or.inr (Or.inr (Or.inr hn))
  obtain ⟨s, hs, hn⟩ := hs
  have hc : ∃ i, 1 ≤ i ∧ i < 1 + (xs.length - 1 - 1) ∧ corner A (get A xs) (get A ys) amax (xs.length - 1) i = none := by
    rcases Nat.eq_zero_or_pos s with h0 | h0
    · subst h0
      exact ⟨1, le_refl _, by omega, corner_nan H _ _ _ _ _ (Or.inl hn)⟩
    · exact ⟨s, h0, by omega, corner_nan H _ _ _ _ _ (Or.inr hn)⟩
  obtain ⟨m, m1, m2, m3⟩ := cornerLoop_none (get A xs) (get A ys) amax (xs.length - 1) _ _ hc
  refine ⟨m, m1, by omega, ?_⟩
  unfold smooth
  rw [if_neg (by omega), if_neg (by omega)]
  simp only [m3]

theorem smooth_ub (xs ys : List F) (amax : F) (h3 : 2 ≤ xs.length) : smooth A xs ys amax ≠ .ub := by
  unfold smooth
  split
  · intro h; cases h
  · rw [if_neg (by omega)]
    dsimp only
    cases hr : cornerLoop A (get A xs) (get A ys) amax (xs.length - 1) (xs.length - 1 - 1) 1 with
    | ok cs => intro h; cases h
    | data e k => intro h; cases h
    | ub => exact absurd hr (cornerLoop_ub _ _ _ _ _ _)

/-! ## Waypoints -/

/-- The second list has the data of the first, where NaN counts. -/
def Kept (A : Arith F) (isNan : F → Prop) (w w' : WayPoint F) : Prop :=
  w'.angles = w.angles ∧ w'.nominal = w.nominal ∧ (∀ j, endRate A w' j = endRate A w j) ∧ (isNan w.duration → isNan w'.duration)

theorem Kept.rfl' (w : WayPoint F) : Kept A isNan w w := ⟨rfl, rfl, fun _ => rfl, id⟩

theorem Kept.trans {u v w : WayPoint F} (h : Kept A isNan u v) (h' : Kept A isNan v w) : Kept A isNan u w :=
  ⟨h'.1.trans h.1, h'.2.1.trans h.2.1, fun j => (h'.2.2.1 j).trans (h.2.2.1 j), fun n => h'.2.2.2 (h.2.2.2 n)⟩

/-- The second list of waypoints comes after the first. -/
def Later (A : Arith F) (isNan : F → Prop) (ws ws' : List (WayPoint F)) : Prop := List.Forall₂ (Kept A isNan) ws ws'

theorem Later.rfl' (ws : List (WayPoint F)) : Later A isNan ws ws := by
  unfold Later
  induction ws with
  | nil => exact .nil
  | cons w ws ih => exact .cons (Kept.rfl' w) ih

theorem Later.trans {a b c : List (WayPoint F)} (h : Later A isNan a b) (h' : Later A isNan b c) : Later A isNan a c := by
  unfold Later at *
  induction h generalizing c with
  | nil => cases h'; exact .nil
  | cons h1 _ ih => cases h' with | cons g1 g2 => exact .cons (h1.trans g1) (ih g2)

theorem later_modify (f : WayPoint F → WayPoint F) (hf : ∀ w, Kept A isNan w (f w)) (ws : List (WayPoint F)) (i : ℕ) :
    Later A isNan ws (ws.modify i f) := by
  induction ws generalizing i with
  | nil => cases i <;> exact .nil
  | cons w ws ih =>
    cases i with
    | zero => exact .cons (hf w) (Later.rfl' ws)
    | succ i => exact .cons (Kept.rfl' w) (ih i)

theorem configure_rate (w : WayPoint F) (j : ℕ) : get A (configure A w).rates j = endRate A w j ∧ (configure A w).ratesConfigured = true := by
  unfold configure endRate
  cases h : w.ratesConfigured
  · simp [get, List.getD, List.getElem?_replicate]
    split <;> rfl
  · simp [get, h]

theorem kept_configure (w : WayPoint F) : Kept A isNan w (configure A w) := by
  refine ⟨?_, ?_, fun j => ?_, ?_⟩
  · unfold configure; split <;> rfl
  · unfold configure; split <;> rfl
  · have := configure_rate (A := A) w j
    rw [← this.1]
    show (if (configure A w).ratesConfigured = true then get A (configure A w).rates j else _) = _
    rw [if_pos this.2]
  · unfold configure; split <;> exact id

theorem kept_stretch (H : Spreads A isNan) (q : ℚ) (w : WayPoint F) : Kept A isNan w (stretchOne A q w) :=
  ⟨rfl, rfl, fun _ => rfl, fun h => H.mul _ _ (Or.inl h)⟩

theorem later_configureEnds (ws : List (WayPoint F)) : Later A isNan ws (configureEnds A ws) :=
  (later_modify _ kept_configure _ _).trans (later_modify _ kept_configure _ _)

theorem later_stretch (H : Spreads A isNan) (n k : ℕ) (ws : List (WayPoint F)) : Later A isNan ws (stretch A n k ws) := by
  unfold stretch
  split
  · exact later_modify _ (kept_stretch H _) _ _
  · split
    · exact later_modify _ (kept_stretch H _) _ _
    · split
      · exact later_modify _ (kept_stretch H _) _ _
      · exact (later_modify _ (kept_stretch H _) _ _).trans (later_modify _ (kept_stretch H _) _ _)

theorem later_stretchAt (H : Spreads A isNan) (ws : List (WayPoint F)) (i j : ℕ) : Later A isNan ws (stretchAt A ws i j) := by
  unfold stretchAt
  dsimp only
  split <;> exact later_modify _ (kept_stretch H _) _ _

theorem later_initialise (H : Spreads A isNan) (d : ℕ) : ∀ ws : List (WayPoint F), Later A isNan ws (initialise A d ws).1 := by
  intro ws
  induction ws with
  | nil => exact .nil
  | cons w rest ih =>
    cases rest with
    | nil => exact Later.rfl' _
    | cons next rest =>
      have hk : Kept A isNan w (if A.lt w.duration (longest A w next (List.range d) (A.lit 0)) then
          { w with duration := longest A w next (List.range d) (A.lit 0) } else w) := by
        split
        · rename_i hlt
          refine ⟨rfl, rfl, fun _ => rfl, fun hn => ?_⟩
          rw [H.lt _ _ (Or.inl hn)] at hlt; cases hlt
        · exact Kept.rfl' w
      unfold initialise
      dsimp only
      generalize (if A.lt w.duration (longest A w next (List.range d) (A.lit 0)) then
          { w with duration := longest A w next (List.range d) (A.lit 0) } else w) = w' at hk ⊢
      by_cases h0 : A.eq w'.duration (A.lit 0) = true
      · rw [if_pos h0]; exact .cons hk (Later.rfl' _)
      · rw [if_neg h0]; exact .cons hk ih

/-- A NaN among the data that counts. -/
def Taint (A : Arith F) (isNan : F → Prop) (d : ℕ) (ws : List (WayPoint F)) : Prop :=
  ∃ k w, ws[k]? = some w ∧
    ((∃ j < d, isNan (get A w.angles j)) ∨ (k + 1 < ws.length ∧ isNan w.duration) ∨
     ((k = 0 ∨ k + 1 = ws.length) ∧ ∃ j < d, isNan (endRate A w j)))

theorem Later.get {ws ws' : List (WayPoint F)} (h : Later A isNan ws ws') (k : ℕ) (w : WayPoint F) (hw : ws[k]? = some w) :
    ∃ w', ws'[k]? = some w' ∧ Kept A isNan w w' := by
  unfold Later at h
  induction h generalizing k with
  | nil => simp at hw
  | cons h1 _ ih =>
    cases k with
    | zero => simp at hw; subst hw; exact ⟨_, rfl, h1⟩
    | succ k => simp at hw; simpa using ih k hw

theorem Later.length {ws ws' : List (WayPoint F)} (h : Later A isNan ws ws') : ws'.length = ws.length :=
  (List.Forall₂.length_eq h).symm

theorem Taint.later {d : ℕ} {ws ws' : List (WayPoint F)} (h : Later A isNan ws ws') (t : Taint A isNan d ws) : Taint A isNan d ws' := by
  obtain ⟨k, w, hw, t⟩ := t
  obtain ⟨w', hw', h1, h2, h3, h4⟩ := h.get k w hw
  refine ⟨k, w', hw', ?_⟩
  rcases t with ⟨j, hj, t⟩ | ⟨hk, t⟩ | ⟨hk, j, hj, t⟩
  · exact Or.inl ⟨j, hj, by rw [h1]; exact t⟩
  · exact Or.inr (Or.inl ⟨by rw [h.length]; exact hk, h4 t⟩)
  · exact Or.inr (Or.inr ⟨by rw [h.length]; exact hk, j, hj, by rw [h3]; exact t⟩)

theorem HasNan.taint {d : ℕ} {ws : List (WayPoint F)} (h : HasNan isNan d ws) : Taint A isNan d ws := by
  rcases h with ⟨w, hw, j, hj, a, ha, hn⟩ | ⟨w, hw, hn⟩ | ⟨w, hw, hc, j, hj, r, hr, hn⟩
  · obtain ⟨k, hk, e⟩ := List.mem_iff_getElem.1 hw
    exact ⟨k, w, by rw [List.getElem?_eq_getElem hk, e], Or.inl ⟨j, hj, by simp [get, List.getD, ha, hn]⟩⟩
  · obtain ⟨k, hk, e⟩ := List.mem_iff_getElem.1 hw
    rw [List.getElem_dropLast] at e
    rw [List.length_dropLast] at hk
    exact ⟨k, w, by rw [List.getElem?_eq_getElem (by omega), e], Or.inr (Or.inl ⟨by omega, hn⟩)⟩
  · have hr' : isNan (endRate A w j) := by simp [endRate, hc, List.getD, hr, hn]
    rcases hw with hw | hw
    · exact ⟨0, w, by rw [← List.head?_eq_getElem?]; exact hw, Or.inr (Or.inr ⟨Or.inl rfl, j, hj, hr'⟩)⟩
    · refine ⟨ws.length - 1, w, by rw [← List.getLast?_eq_getElem?]; exact hw, Or.inr (Or.inr ⟨Or.inr ?_, j, hj, hr'⟩)⟩
      cases ws with
      | nil => simp at hw
      | cons _ _ => simp

/-! ## Linear trajectories -/

theorem times_length (pre preD post postD : F) (ds : List F) (h : 0 < ds.length) : (times A pre preD post postD ds).length = ds.length + 3 := by
  have hf : ∀ (t : F) (l : List F), 0 < l.length → (timesFrom A post postD t l).length = l.length + 1 := by
    intro t l
    induction l generalizing t with
    | nil => intro h; simp at h
    | cons d ds ih =>
      intro _
      cases ds with
      | nil => rfl
      | cons d' ds => simp [timesFrom, ih (A.add t d)]
  cases ds with
  | nil => simp at h
  | cons d ds =>
    cases ds with
    | nil => rfl
    | cons d' ds => simp [times, hf]

theorem times_nan (H : Spreads A isNan) (pre preD post postD : F) (ds : List F) (h : ∃ d ∈ ds.tail, isNan d) :
    ∃ x ∈ times A pre preD post postD ds, isNan x := by
  have hf : ∀ (t : F) (l : List F), ((∃ d ∈ l, isNan d) ∨ (l ≠ [] ∧ isNan t)) → ∃ x ∈ timesFrom A post postD t l, isNan x := by
    intro t l
    induction l generalizing t with
    | nil => intro h; simp at h
    | cons d ds ih =>
      intro h
      cases ds with
      | nil =>
        refine ⟨_, List.mem_cons_self, ?_⟩
        apply H.add; left; apply H.add
        rcases h with ⟨d', hd, hn⟩ | ⟨_, hn⟩
        · simp at hd; subst hd; exact Or.inr hn
        · exact Or.inl hn
      | cons d' ds =>
        have hc : ((∃ e ∈ d' :: ds, isNan e) ∨ (d' :: ds ≠ [] ∧ isNan (A.add t d))) := by
          rcases h with ⟨e, he, hn⟩ | ⟨_, hn⟩
          · rcases List.mem_cons.1 he with rfl | he
            · exact Or.inr ⟨by simp, H.add _ _ (Or.inr hn)⟩
            · exact Or.inl ⟨e, he, hn⟩
          · exact Or.inr ⟨by simp, H.add _ _ (Or.inl hn)⟩
        obtain ⟨x, hx, hn⟩ := ih (A.add t d) hc
        exact ⟨x, List.mem_cons_of_mem _ hx, hn⟩
  cases ds with
  | nil => simp at h
  | cons d ds =>
    cases ds with
    | nil => simp at h
    | cons d' ds =>
      obtain ⟨x, hx, hn⟩ := hf (A.add pre preD) (d' :: ds) (Or.inl h)
      exact ⟨x, by simp [times, hx], hn⟩

theorem splineLoop_nan (H : Spreads A isNan) (xs : List F) (ys : ℕ → List F) (amax : List F)
    (hl : ∀ j, (ys j).length = xs.length) (h3 : 3 ≤ xs.length) : ∀ (js : List ℕ) (done : List (Smooth F)),
    (∃ j ∈ js, (∃ x ∈ xs, isNan x) ∨ ∃ y ∈ ys j, isNan y) → ∃ k, splineLoop A xs ys amax js done = .data k := by
  intro js
  induction js with
  | nil => rintro done ⟨j, hj, _⟩; simp at hj
  | cons j js ih =>
    rintro done ⟨i, hi, hn⟩
    unfold splineLoop
    cases hs : smooth A xs (ys j) (get A amax j) with
    | ok s =>
      rcases List.mem_cons.1 hi with rfl | hi
      · obtain ⟨k, _, _, e⟩ := smooth_nan H xs (ys i) (get A amax i) (hl i) h3 hn
        rw [e] at hs; cases hs
      · exact ih _ ⟨i, hi, hn⟩
    | data e k => exact ⟨k, rfl⟩
    | ub => exact absurd hs (smooth_ub _ _ _ (by omega))

theorem pullLoop_nan (H : Spreads A isNan) (stage : F → Outcome (Bool × F)) (limit : F) (h : isNan limit) (passes : ℕ) (p : F) :
    pullLoop A stage limit passes p = none ∨ pullLoop A stage limit passes p = some (.ok none) := by
  cases passes with
  | zero => exact Or.inl rfl
  | succ n => right; simp [pullLoop, H.le _ _ (Or.inr h)]

/-- The loops of `generate` end without an exception or undefined behaviour. -/
theorem pullLoop_calm (stage : F → Outcome (Bool × F)) (limit : F) (h : ∀ p, ∃ r, stage p = .ok r) : ∀ passes p,
    pullLoop A stage limit passes p = none ∨ ∃ r, pullLoop A stage limit passes p = some (.ok r) := by
  intro passes
  induction passes with
  | zero => intro p; exact Or.inl rfl
  | succ n ih =>
    intro p
    unfold pullLoop
    split
    · obtain ⟨⟨b, t⟩, e⟩ := h p
      rw [e]
      cases b
      · exact Or.inr ⟨_, rfl⟩
      · exact ih _
    · exact Or.inr ⟨_, rfl⟩

/-- What `generate` does to a NaN: neither splines nor undefined behaviour. -/
def Stuck (g : Generated F) : Prop := g = .running ∨ (∃ k, g = .data k) ∨ g = .throw .outOfRange

theorem intersection_flag (f g : Coeffs F) : intersectionX A f g = .throw .outOfRange ∨ ∃ x, intersectionX A f g = .ok x := by
  unfold intersectionX; split
  · exact Or.inl rfl
  · exact Or.inr ⟨_, rfl⟩

theorem pre_flag (w : WayPoint F) (pull : F) : ∀ js t, preIntersect A w pull js t = .throw .outOfRange ∨ ∃ x, preIntersect A w pull js t = .ok x := by
  intro js
  induction js with
  | nil => intro t; exact Or.inr ⟨_, rfl⟩
  | cons j js ih =>
    intro t
    unfold preIntersect
    rcases intersection_flag (A := A) (initialTangent A w j)
      (pointSlopeForm A pull (get A w.angles j) (opposite A (get A w.rates j) (get A w.nominal j))) with h | ⟨x, h⟩
    · rw [h]; exact Or.inl rfl
    · rw [h]; exact ih _

theorem post_flag (w : WayPoint F) (nominal : List F) (pull : F) : ∀ js t,
    postIntersect A w nominal pull js t = .throw .outOfRange ∨ ∃ x, postIntersect A w nominal pull js t = .ok x := by
  intro js
  induction js with
  | nil => intro t; exact Or.inr ⟨_, rfl⟩
  | cons j js ih =>
    intro t
    unfold postIntersect
    rcases intersection_flag (A := A) (finalTangent A w pull j)
      (pointSlopeForm A (A.lit 0) (get A w.angles j) (opposite A (get A w.rates j) (get A nominal j))) with h | ⟨x, h⟩
    · rw [h]; exact Or.inl rfl
    · rw [h]; exact ih _

theorem pullLoop_flag (stage : F → Outcome (Bool × F)) (limit : F) (h : ∀ p, stage p = .throw .outOfRange ∨ ∃ r, stage p = .ok r) :
    ∀ passes p, pullLoop A stage limit passes p = none ∨ pullLoop A stage limit passes p = some (.throw .outOfRange) ∨
      ∃ r, pullLoop A stage limit passes p = some (.ok r) := by
  intro passes
  induction passes with
  | zero => intro p; exact Or.inl rfl
  | succ n ih =>
    intro p
    unfold pullLoop
    split
    · rcases h p with e | ⟨⟨b, t⟩, e⟩
      · rw [e]; exact Or.inr (Or.inl rfl)
      · rw [e]
        cases b
        · exact Or.inr (Or.inr ⟨_, rfl⟩)
        · exact ih _
    · exact Or.inr (Or.inr ⟨_, rfl⟩)

theorem preStage_flag (d : ℕ) (amax : List F) (w0 w1 : WayPoint F) (p : F) :
    preStage A d amax w0 w1 p = .throw .outOfRange ∨ ∃ r, preStage A d amax w0 w1 p = .ok r := by
  unfold preStage
  rcases pre_flag (A := A) w0 p (List.range d) (A.div w0.duration (A.lit 2)) with h | ⟨x, h⟩
  · rw [h]; exact Or.inl rfl
  · rw [h]; exact Or.inr ⟨_, rfl⟩

theorem postStage_flag (d : ℕ) (amax : List F) (w wn : WayPoint F) (p : F) :
    postStage A d amax w wn p = .throw .outOfRange ∨ ∃ r, postStage A d amax w wn p = .ok r := by
  unfold postStage
  rcases post_flag (A := A) wn w.nominal p (List.range d) (A.lit 0) with h | ⟨x, h⟩
  · rw [h]; exact Or.inl rfl
  · rw [h]; exact Or.inr ⟨_, rfl⟩

theorem generate_nan (H : Spreads A isNan) (d : ℕ) (hd : 0 < d) (amax : List F) (pulls : ℕ) (w0 wn : WayPoint F) (middle : List (WayPoint F))
    (h : isNan w0.duration ∨ (∃ w ∈ middle, isNan w.duration) ∨
      ∃ j < d, isNan (get A w0.angles j) ∨ isNan (get A wn.angles j) ∨ (∃ w ∈ middle, isNan (get A w.angles j)) ∨
        isNan (get A w0.rates j) ∨ isNan (get A wn.rates j)) :
    Stuck (generate A d amax pulls w0 wn middle) := by
  unfold generate
  dsimp only
  have hpre := pullLoop_flag (A := A) (preStage A d amax w0 ((middle ++ [wn]).headD wn)) w0.duration
    (preStage_flag d amax w0 _) pulls (A.lit (1 / 1000))
  rcases hpre with e | e | ⟨r, e⟩
  · rw [e]; exact Or.inl rfl
  · rw [e]; exact Or.inr (Or.inr rfl)
  rw [e]
  cases r with
  | none => exact Or.inr (Or.inl ⟨0, rfl⟩)
  | some r =>
  obtain ⟨prePull, pre⟩ := r
  have h0 : ¬ isNan w0.duration := by
    intro hn
    rcases pullLoop_nan H (preStage A d amax w0 ((middle ++ [wn]).headD wn)) w0.duration hn pulls (A.lit (1 / 1000)) with e' | e' <;>
      rw [e] at e' <;> simp at e'
  dsimp only
  have hpost := pullLoop_flag (A := A) (postStage A d amax ((w0 :: middle).getLastD w0) wn) ((w0 :: middle).getLastD w0).duration
    (postStage_flag d amax _ wn) pulls (A.lit (1 / 1000))
  rcases hpost with e2 | e2 | ⟨r, e2⟩
  · rw [e2]; exact Or.inl rfl
  · rw [e2]; exact Or.inr (Or.inr rfl)
  rw [e2]
  cases r with
  | none => exact Or.inr (Or.inl ⟨0, rfl⟩)
  | some r =>
  obtain ⟨postPull, post⟩ := r
  dsimp only
  right; left
  apply splineLoop_nan H
  · intro j
    rw [times_length _ _ _ _ _ (by simp)]
    simp [values]
  · rw [times_length _ _ _ _ _ (by simp)]; omega
  · rcases h with h | ⟨w, hw, hn⟩ | ⟨j, hj, h⟩
    · exact absurd h h0
    · exact ⟨0, List.mem_range.2 hd, Or.inl (times_nan H _ _ _ _ _ ⟨w.duration, List.mem_map_of_mem hw, hn⟩)⟩
    · refine ⟨j, List.mem_range.2 hj, Or.inr ?_⟩
      rcases h with h | h | ⟨w, hw, h⟩ | h | h
      · exact ⟨_, by simp [values], h⟩
      · exact ⟨get A wn.angles j, by simp [values], h⟩
      · refine ⟨get A w.angles j, ?_, h⟩
        simp only [values, List.cons_append, List.mem_cons, List.mem_append, List.mem_map]
        exact Or.inr (Or.inr (Or.inl ⟨w, hw, rfl⟩))
      · exact ⟨eval A 1 (initialTangent A w0 j) pre, by simp [values], eval_nan H _ _ 1 1 (le_refl _) h⟩
      · exact ⟨eval A 1 (finalTangent A wn postPull j) post, by simp [values], eval_nan H _ _ 1 1 (le_refl _) h⟩

theorem rate_of (w : WayPoint F) (h : w.ratesConfigured = true) (j : ℕ) : endRate A w j = get A w.rates j := by
  simp [endRate, get, h]

theorem ends_configured (ws : List (WayPoint F)) (w : WayPoint F)
    (h : (configureEnds A ws)[0]? = some w ∨ (configureEnds A ws)[ws.length - 1]? = some w) : w.ratesConfigured = true := by
  have hc : ∀ v : WayPoint F, (configure A v).ratesConfigured = true := fun v => (configure_rate v 0).2
  unfold configureEnds at h
  simp only [List.getElem?_modify] at h
  rcases h with h | h
  · cases h0 : ws[0]? with
    | none => rw [h0] at h; simp at h
    | some v =>
      rw [h0] at h
      by_cases hz : ws.length - 1 = 0
      · simp [hz] at h; rw [← h]; exact hc _
      · simp [hz] at h; rw [← h]; exact hc _
  · cases h0 : ws[ws.length - 1]? with
    | none => rw [h0] at h; simp at h
    | some v =>
      rw [h0] at h
      simp at h; rw [← h]; exact hc _

theorem generateFor_nan (H : Spreads A isNan) (d : ℕ) (hd : 0 < d) (amax : List F) (pulls : ℕ) (cs : List (WayPoint F)) (hl : 2 ≤ cs.length)
    (hc : ∀ w, cs[0]? = some w ∨ cs[cs.length - 1]? = some w → w.ratesConfigured = true) (t : Taint A isNan d cs) :
    Stuck (generateFor A d amax pulls cs) := by
  match cs, hl with
  | w0 :: w1 :: rest, _ =>
    unfold generateFor
    dsimp only
    apply generate_nan H d hd
    have hlast : (w1 :: rest).getLast? = some ((w1 :: rest).getLastD w1) := by
      rw [List.getLastD_eq_getLast?]; cases h : (w1 :: rest).getLast? with
      | none => simp at h
      | some v => rfl
    have hmid : ∀ k w, (w0 :: w1 :: rest)[k]? = some w → k = 0 ∧ w = w0 ∨ (k + 1 = (w0 :: w1 :: rest).length ∧ w = (w1 :: rest).getLastD w1) ∨
        (0 < k ∧ k + 1 < (w0 :: w1 :: rest).length ∧ w ∈ (w1 :: rest).dropLast) := by
      intro k w hw
      cases k with
      | zero => left; simpa using hw.symm
      | succ k =>
        right
        have hk : (w1 :: rest)[k]? = some w := by simpa using hw
        have hlt : k < (w1 :: rest).length := by
          by_contra hge
          rw [List.getElem?_eq_none (by omega)] at hk; cases hk
        rcases Nat.lt_or_ge k ((w1 :: rest).length - 1) with h1 | h1
        · right
          refine ⟨by omega, by simp at h1 ⊢; omega, ?_⟩
          rw [List.mem_iff_getElem?]
          refine ⟨k, ?_⟩
          rw [List.getElem?_dropLast, if_pos h1]; exact hk
        · left
          have : k = (w1 :: rest).length - 1 := by omega
          rw [this, ← List.getLast?_eq_getElem?, hlast] at hk
          refine ⟨by simp at hlt h1 ⊢; omega, ?_⟩
          exact (Option.some.inj hk).symm
    have c0 : w0.ratesConfigured = true := hc w0 (Or.inl rfl)
    have cn : ((w1 :: rest).getLastD w1).ratesConfigured = true := by
      apply hc _ (Or.inr _)
      have : (w0 :: w1 :: rest).getLast? = some ((w1 :: rest).getLastD w1) := by
        rw [List.getLast?_cons_cons]; exact hlast
      rw [← List.getLast?_eq_getElem?]; exact this
    obtain ⟨k, w, hw, t⟩ := t
    rcases hmid k w hw with ⟨rfl, rfl⟩ | ⟨hk, hwn⟩ | ⟨hk0, hk1, hm⟩
    · rcases t with ⟨j, hj, t⟩ | ⟨_, t⟩ | ⟨_, j, hj, t⟩
      · exact Or.inr (Or.inr ⟨j, hj, Or.inl t⟩)
      · exact Or.inl t
      · exact Or.inr (Or.inr ⟨j, hj, Or.inr (Or.inr (Or.inr (Or.inl (by rw [← rate_of _ c0]; exact t))))⟩)
    · rcases t with ⟨j, hj, t⟩ | ⟨hk', _⟩ | ⟨_, j, hj, t⟩
      · exact Or.inr (Or.inr ⟨j, hj, Or.inr (Or.inl (by rw [← hwn]; exact t))⟩)
      · omega
      · exact Or.inr (Or.inr ⟨j, hj, Or.inr (Or.inr (Or.inr (Or.inr (by rw [← rate_of _ cn, ← hwn]; exact t))))⟩)
    · rcases t with ⟨j, hj, t⟩ | ⟨_, t⟩ | ⟨hk', _⟩
      · exact Or.inr (Or.inr ⟨j, hj, Or.inr (Or.inr (Or.inl ⟨w, hm, t⟩))⟩)
      · exact Or.inr (Or.inl ⟨w, hm, t⟩)
      · omega

theorem constrainLoop_nan (H : Spreads A isNan) (mode : Mode) (d : ℕ) (hd : 0 < d) (amax : List F) (pulls : ℕ) : ∀ passes (ws : List (WayPoint F)),
    2 ≤ ws.length → Taint A isNan d ws →
    constrainLoop A mode d amax pulls passes ws = none ∨ constrainLoop A mode d amax pulls passes ws = some (.throw .outOfRange) := by
  intro passes
  induction passes with
  | zero => intro ws _ _; exact Or.inl rfl
  | succ n ih =>
    intro ws hl t
    have lat := later_configureEnds (A := A) (isNan := isNan) ws
    have hs := generateFor_nan H d hd amax pulls (configureEnds A ws) (by rw [lat.length]; exact hl)
      (by intro w hw; rw [lat.length] at hw; exact ends_configured ws w hw) (t.later lat)
    unfold constrainLoop
    rcases hs with e | ⟨k, e⟩ | e
    · rw [e]; exact Or.inl rfl
    · rw [e]
      dsimp only
      have l2 := later_stretch H (ws.length - 1) k (configureEnds A ws)
      exact ih _ (by rw [l2.length, lat.length]; exact hl) ((t.later lat).later l2)
    · rw [e]; exact Or.inr rfl

theorem validate_ok (ws : List (WayPoint F)) (b : Bool) (h : validate A ws 2 = .ok b) (hb : b = true) : 2 ≤ ws.length := by
  unfold validate at h
  split at h
  · cases h; cases hb
  · omega

theorem linear_nan (H : Spreads A isNan) (mode : Mode) (d : ℕ) (hd : 0 < d) (amax : List F) (passes : ℕ) (ws : List (WayPoint F))
    (t : Taint A isNan d ws) :
    linearSplineInterpolation A mode d amax passes ws = none ∨
    linearSplineInterpolation A mode d amax passes ws = some (.throw .outOfRange) ∨
    linearSplineInterpolation A mode d amax passes ws = some (.throw .configurationError) := by
  unfold linearSplineInterpolation
  cases hv : validate A ws 2 with
  | ub =>
    exfalso
    unfold validate at hv
    split at hv
    · cases hv
    · rw [if_neg (by omega)] at hv; cases hv
  | throw e =>
    exfalso
    unfold validate at hv
    split at hv
    · cases hv
    · rw [if_neg (by omega)] at hv; cases hv
  | ok b =>
    cases b
    · exact Or.inr (Or.inr rfl)
    · dsimp only
      have hl := validate_ok ws true hv rfl
      have lat := later_initialise H d ws
      generalize initialise A d ws = r at lat
      obtain ⟨ws', b⟩ := r
      cases b
      · exact Or.inr (Or.inr rfl)
      · dsimp only
        rcases constrainLoop_nan H mode d hd amax passes passes ws' (by rw [lat.length]; exact hl) (t.later lat) with e | e
        · exact Or.inl e
        · exact Or.inr (Or.inl e)

/-! ## Slopes that are told apart -/

theorem intersection_ok (f g : Coeffs F) (h : isApprox A (f 1) (g 1) = false) : ∃ x, intersectionX A f g = .ok x := by
  unfold intersectionX
  rw [h]
  exact ⟨_, rfl⟩

theorem pre_calm (w : WayPoint F) (d : ℕ) (h : ∀ j < d, isApprox A (get A w.rates j) (opposite A (get A w.rates j) (get A w.nominal j)) = false)
    (pull : F) : ∀ (js : List ℕ) (t : F), (∀ j ∈ js, j < d) → ∃ x, preIntersect A w pull js t = .ok x := by
  intro js
  induction js with
  | nil => intro t _; exact ⟨_, rfl⟩
  | cons j js ih =>
    intro t hj
    have := h j (hj j List.mem_cons_self)
    obtain ⟨x, e⟩ : ∃ x, intersectionX A (initialTangent A w j)
        (pointSlopeForm A pull (get A w.angles j) (opposite A (get A w.rates j) (get A w.nominal j))) = .ok x := by
      exact intersection_ok _ _ this
    unfold preIntersect
    rw [e]
    exact ih _ fun i hi => hj i (List.mem_cons_of_mem _ hi)

theorem post_calm (w : WayPoint F) (nominal : List F) (d : ℕ)
    (h : ∀ j < d, isApprox A (get A w.rates j) (opposite A (get A w.rates j) (get A nominal j)) = false)
    (pull : F) : ∀ (js : List ℕ) (t : F), (∀ j ∈ js, j < d) → ∃ x, postIntersect A w nominal pull js t = .ok x := by
  intro js
  induction js with
  | nil => intro t _; exact ⟨_, rfl⟩
  | cons j js ih =>
    intro t hj
    have := h j (hj j List.mem_cons_self)
    obtain ⟨x, e⟩ : ∃ x, intersectionX A (finalTangent A w pull j)
        (pointSlopeForm A (A.lit 0) (get A w.angles j) (opposite A (get A w.rates j) (get A nominal j))) = .ok x := by
      exact intersection_ok _ _ this
    unfold postIntersect
    rw [e]
    exact ih _ fun i hi => hj i (List.mem_cons_of_mem _ hi)

/-- `Apart` by indices. -/
def Told (A : Arith F) (d : ℕ) (ws : List (WayPoint F)) : Prop :=
  (∀ w, ws[0]? = some w → ∀ j < d, isApprox A (endRate A w j) (opposite A (endRate A w j) (get A w.nominal j)) = false) ∧
  (∀ v w, ws[ws.length - 2]? = some v → ws[ws.length - 1]? = some w → ∀ j < d,
    isApprox A (endRate A w j) (opposite A (endRate A w j) (get A v.nominal j)) = false)

theorem Told.later {d : ℕ} {ws ws' : List (WayPoint F)} (h : Later A isNan ws ws') (hl : 2 ≤ ws.length) (t : Told A d ws) : Told A d ws' := by
  refine ⟨fun w hw j hj => ?_, fun v w hv hw j hj => ?_⟩
  · obtain ⟨u, hu⟩ : ∃ u, ws[0]? = some u := ⟨ws[0], List.getElem?_eq_getElem (by omega)⟩
    obtain ⟨w', hw', k1, k2, k3, _⟩ := h.get 0 u hu
    rw [hw] at hw'; cases hw'
    rw [k2, k3]; exact t.1 u hu j hj
  · rw [h.length] at hv hw
    obtain ⟨u, hu⟩ : ∃ u, ws[ws.length - 2]? = some u := ⟨ws[ws.length - 2], List.getElem?_eq_getElem (by omega)⟩
    obtain ⟨x, hx⟩ : ∃ x, ws[ws.length - 1]? = some x := ⟨ws[ws.length - 1], List.getElem?_eq_getElem (by omega)⟩
    obtain ⟨v', hv', _, k2, _, _⟩ := h.get _ u hu
    obtain ⟨w', hw', _, _, k3, _⟩ := h.get _ x hx
    rw [hv] at hv'; cases hv'
    rw [hw] at hw'; cases hw'
    rw [k2, k3]; exact t.2 u x hu hx j hj

theorem generate_calm (d : ℕ) (amax : List F) (pulls : ℕ) (w0 wn : WayPoint F) (middle : List (WayPoint F))
    (h0 : ∀ j < d, isApprox A (get A w0.rates j) (opposite A (get A w0.rates j) (get A w0.nominal j)) = false)
    (hn : ∀ j < d, isApprox A (get A wn.rates j) (opposite A (get A wn.rates j) (get A ((w0 :: middle).getLastD w0).nominal j)) = false)
    (e : Flag) : generate A d amax pulls w0 wn middle ≠ .throw e := by
  have c0 : ∀ p, ∃ r, preStage A d amax w0 ((middle ++ [wn]).headD wn) p = .ok r := by
    intro p
    obtain ⟨x, hx⟩ := pre_calm w0 d h0 p (List.range d) (A.div w0.duration (A.lit 2)) (fun j => List.mem_range.1)
    unfold preStage; rw [hx]; exact ⟨_, rfl⟩
  have cn : ∀ p, ∃ r, postStage A d amax ((w0 :: middle).getLastD w0) wn p = .ok r := by
    intro p
    obtain ⟨x, hx⟩ := post_calm wn _ d hn p (List.range d) (A.lit 0) (fun j => List.mem_range.1)
    unfold postStage; rw [hx]; exact ⟨_, rfl⟩
  have hsl : ∀ xs ys js done, splineLoop A xs ys amax js done ≠ .throw e := by
    intro xs ys js
    induction js with
    | nil => intro done h; cases h
    | cons j js ih =>
      intro done h
      unfold splineLoop at h
      cases hs : smooth A xs (ys j) (get A amax j) with
      | ok s => rw [hs] at h; exact ih _ h
      | data e k => rw [hs] at h; cases h
      | ub => rw [hs] at h; cases h
  unfold generate
  dsimp only
  rcases pullLoop_calm (A := A) _ w0.duration c0 pulls (A.lit (1 / 1000)) with h | ⟨r, h⟩
  · rw [h]; intro h; cases h
  rw [h]
  cases r with
  | none => intro h; cases h
  | some r =>
  dsimp only
  rcases pullLoop_calm (A := A) _ ((w0 :: middle).getLastD w0).duration cn pulls (A.lit (1 / 1000)) with h | ⟨r', h⟩
  · rw [h]; intro h; cases h
  rw [h]
  cases r' with
  | none => intro h; cases h
  | some r' => exact hsl _ _ _ _

theorem generateFor_calm (d : ℕ) (amax : List F) (pulls : ℕ) (cs : List (WayPoint F)) (t : Told A d cs) (e : Flag)
    (hc : ∀ w, cs[0]? = some w ∨ cs[cs.length - 1]? = some w → w.ratesConfigured = true) :
    generateFor A d amax pulls cs ≠ .throw e := by
  match cs with
  | [] => intro h; cases h
  | [_] => intro h; cases h
  | w0 :: w1 :: rest =>
    unfold generateFor
    have hlast : (w1 :: rest).getLast? = some ((w1 :: rest).getLastD w1) := by
      rw [List.getLastD_eq_getLast?]; cases h : (w1 :: rest).getLast? with
      | none => simp at h
      | some v => rfl
    have hlast' : (w0 :: w1 :: rest)[(w0 :: w1 :: rest).length - 1]? = some ((w1 :: rest).getLastD w1) := by
      rw [← List.getLast?_eq_getElem?, List.getLast?_cons_cons]; exact hlast
    have hbefore : (w0 :: w1 :: rest)[(w0 :: w1 :: rest).length - 2]? = some ((w0 :: (w1 :: rest).dropLast).getLastD w0) := by
      have h1 : (w0 :: (w1 :: rest).dropLast).getLast? = some ((w0 :: (w1 :: rest).dropLast).getLastD w0) := by
        rw [List.getLastD_eq_getLast?]; cases h : (w0 :: (w1 :: rest).dropLast).getLast? with
        | none => simp at h
        | some v => rfl
      rw [← h1, List.getLast?_eq_getElem?]
      have : w0 :: (w1 :: rest).dropLast = (w0 :: w1 :: rest).dropLast := rfl
      rw [this, List.getElem?_dropLast, if_pos (by simp), List.length_dropLast]
      rfl
    apply generate_calm
    · intro j hj
      have := t.1 w0 rfl j hj
      rwa [rate_of _ (hc w0 (Or.inl rfl))] at this
    · intro j hj
      have := t.2 _ _ hbefore hlast' j hj
      rwa [rate_of _ (hc _ (Or.inr hlast'))] at this

theorem constrainLoop_hang (H : Spreads A isNan) (mode : Mode) (d : ℕ) (hd : 0 < d) (amax : List F) (pulls : ℕ) : ∀ passes (ws : List (WayPoint F)),
    2 ≤ ws.length → Taint A isNan d ws → Told A d ws → constrainLoop A mode d amax pulls passes ws = none := by
  intro passes
  induction passes with
  | zero => intro ws _ _ _; rfl
  | succ n ih =>
    intro ws hl t told
    have lat := later_configureEnds (A := A) (isNan := isNan) ws
    have hcf : ∀ w, (configureEnds A ws)[0]? = some w ∨ (configureEnds A ws)[(configureEnds A ws).length - 1]? = some w →
        w.ratesConfigured = true := by intro w hw; rw [lat.length] at hw; exact ends_configured ws w hw
    have hs := generateFor_nan H d hd amax pulls (configureEnds A ws) (by rw [lat.length]; exact hl) hcf (t.later lat)
    have hn := generateFor_calm d amax pulls (configureEnds A ws) (told.later lat hl) .outOfRange hcf
    unfold constrainLoop
    rcases hs with e | ⟨k, e⟩ | e
    · rw [e]
    · rw [e]
      dsimp only
      have l2 := later_stretch H (ws.length - 1) k (configureEnds A ws)
      exact ih _ (by rw [l2.length, lat.length]; exact hl) ((t.later lat).later l2)
        ((told.later lat hl).later l2 (by rw [lat.length]; exact hl))
    · exact absurd e hn

theorem Apart.told {d : ℕ} {ws : List (WayPoint F)} (h : Apart A d ws) : Told A d ws := by
  refine ⟨fun w hw j hj => h.1 w (by rw [List.head?_eq_getElem?]; exact hw) j hj, fun v w hv hw j hj => ?_⟩
  rcases Nat.lt_or_ge ws.length 2 with hl | hl
  · have e : ws.length - 2 = 0 := by omega
    have e1 : ws.length - 1 = 0 := by omega
    rw [e] at hv; rw [e1] at hw
    rw [hv] at hw; cases hw
    exact h.1 v (by rw [List.head?_eq_getElem?]; exact hv) j hj
  · apply h.2 v w _ (by rw [List.getLast?_eq_getElem?]; exact hw) j hj
    rw [List.getLast?_eq_getElem?, List.getElem?_dropLast, List.length_dropLast, if_pos (by omega)]
    exact hv

theorem linear_hang (H : Spreads A isNan) (mode : Mode) (d : ℕ) (hd : 0 < d) (amax : List F) (passes : ℕ) (ws : List (WayPoint F))
    (t : Taint A isNan d ws) (told : Told A d ws) :
    linearSplineInterpolation A mode d amax passes ws = none ∨
    linearSplineInterpolation A mode d amax passes ws = some (.throw .configurationError) ∧
      (validate A ws 2 = .ok false ∨ (initialise A d ws).2 = false) := by
  unfold linearSplineInterpolation
  cases hv : validate A ws 2 with
  | ub =>
    exfalso
    unfold validate at hv
    split at hv
    · cases hv
    · rw [if_neg (by omega)] at hv; cases hv
  | throw e =>
    exfalso
    unfold validate at hv
    split at hv
    · cases hv
    · rw [if_neg (by omega)] at hv; cases hv
  | ok b =>
    cases b
    · exact Or.inr ⟨rfl, Or.inl rfl⟩
    · dsimp only
      have hl := validate_ok ws true hv rfl
      have lat := later_initialise H d ws
      generalize initialise A d ws = r at lat
      obtain ⟨ws', b⟩ := r
      cases b
      · exact Or.inr ⟨rfl, Or.inr rfl⟩
      · exact Or.inl (constrainLoop_hang H mode d hd amax passes passes ws' (by rw [lat.length]; exact hl) (t.later lat)
          (told.later lat hl))

/-! ## Tension splines -/

theorem zBack_nan (H : Spreads A isNan) (a u v : ℕ → F) (n : ℕ)
    (h : (∀ i, isNan (a i)) ∨ isNan (v (n - 1))) : ∀ back, 0 < back → isNan (zBack A a u v n back) := by
  intro back
  induction back with
  | zero => intro h; omega
  | succ back ih =>
    intro _
    unfold zBack
    apply H.div; left
    rcases h with h | h
    · exact H.sub _ _ (Or.inr (H.mul _ _ (Or.inl (h _))))
    · rcases Nat.eq_zero_or_pos back with h0 | h0
      · subst h0; exact H.sub _ _ (Or.inl h)
      · exact H.sub _ _ (Or.inr (H.mul _ _ (Or.inr (ih h0))))

theorem vAt_nan (H : Spreads A isNan) (a beta gamma : ℕ → F) (k : ℕ) (h : isNan (gamma k)) :
    ∀ i, 0 < i → k ≤ i → isNan (vAt A a beta gamma i) := by
  intro i
  induction i with
  | zero => intro h; omega
  | succ i ih =>
    intro _ hk
    cases i with
    | zero =>
      show isNan (A.sub (gamma 1) (gamma 0))
      have : k = 0 ∨ k = 1 := by omega
      rcases this with rfl | rfl
      · exact H.sub _ _ (Or.inr h)
      · exact H.sub _ _ (Or.inl h)
    | succ i =>
      show isNan (A.sub (A.sub (gamma (i + 2)) (gamma (i + 1))) _)
      rcases Nat.eq_or_lt_of_le hk with e | e
      · exact H.sub _ _ (Or.inl (H.sub _ _ (Or.inl (by rw [e] at h; exact h))))
      · exact H.sub _ _ (Or.inr (H.div _ _ (Or.inl (H.mul _ _ (Or.inr (ih (by omega) (by omega)))))))

/-- Every second derivative inside is NaN. -/
theorem zAt_nan (H : Spreads A isNan) (tau : F) (x y : ℕ → F) (n : ℕ) (hn : 2 ≤ n)
    (h : (∀ i, isNan (aAt A tau x i)) ∨ ∃ k ≤ n, isNan (x k) ∨ isNan (y k)) (i : ℕ) (h0 : 0 < i) (hi : i < n) :
    isNan (zAt A tau x y n i) := by
  unfold zAt
  rw [if_neg (by omega)]
  apply zBack_nan H _ _ _ _ _ _ (by omega)
  rcases h with h | ⟨k, hk, h⟩
  · exact Or.inl h
  · right
    have hg : ∀ s, (isNan (x s) ∨ isNan (y s)) ∨ (isNan (x (s + 1)) ∨ isNan (y (s + 1))) → isNan (gammaAt A tau x y s) := by
      intro s hs
      apply H.div
      rcases hs with (hs | hs) | hs | hs
      · exact Or.inr (H.sub _ _ (Or.inr hs))
      · exact Or.inl (H.mul _ _ (Or.inr (H.sub _ _ (Or.inr hs))))
      · exact Or.inr (H.sub _ _ (Or.inl hs))
      · exact Or.inl (H.mul _ _ (Or.inr (H.sub _ _ (Or.inl hs))))
    rcases Nat.lt_or_ge k n with h1 | h1
    · exact vAt_nan H _ _ _ k (hg k (Or.inl h)) _ (by omega) (by omega)
    · have e : k = (n - 1) + 1 := by omega
      exact vAt_nan H _ _ _ (n - 1) (hg (n - 1) (Or.inr (by rw [← e]; exact h))) _ (by omega) (le_refl _)

theorem value_nan (H : Spreads A isNan) (f : Func F) (tau x : F) (h : isNan f.z0 ∨ isNan f.zf) : isNan (Func.value A f tau x) := by
  unfold Func.value
  dsimp only
  apply H.add; left; apply H.add; left; apply H.div; left; apply H.add
  rcases h with h | h
  · exact Or.inl (H.mul _ _ (Or.inl h))
  · exact Or.inr (H.mul _ _ (Or.inl h))

theorem slope_nan (H : Spreads A isNan) (f : Func F) (tau x : F) (h : isNan f.z0 ∨ isNan f.zf) : isNan (Func.slope A f tau x) := by
  unfold Func.slope
  dsimp only
  apply H.add; left; apply H.add; left; apply H.div; left; apply H.add
  rcases h with h | h
  · exact Or.inl (H.mul _ _ (Or.inl (H.mul _ _ (Or.inr h))))
  · exact Or.inr (H.mul _ _ (Or.inl (H.mul _ _ (Or.inr h))))

theorem curvature_nan (H : Spreads A isNan) (f : Func F) (tau x : F) (h : isNan f.z0 ∨ isNan f.zf) : isNan (Func.curvature A f tau x) := by
  unfold Func.curvature
  dsimp only
  apply H.div; left; apply H.add
  rcases h with h | h
  · exact Or.inl (H.mul _ _ (Or.inl (H.mul _ _ (Or.inr h))))
  · exact Or.inr (H.mul _ _ (Or.inl (H.mul _ _ (Or.inr h))))

/-- A tension that makes the coefficients of the system NaN. -/
def BadTension (A : Arith F) (isNan : F → Prop) (tau : F) : Prop := ∀ h, isNan (A.div tau (A.sinh (A.mul tau h)))

theorem bad_nan (H : Spreads A isNan) (tau : F) (h : isNan tau) : BadTension A isNan tau := fun _ => H.div _ _ (Or.inl h)

theorem bad_zero {isZero : F → Prop} (H : Spreads A isNan) (Z : Zeros A isNan isZero) (tau : F) (h : isZero tau) : BadTension A isNan tau := by
  intro s
  rcases Z.mul tau s h with h1 | h1
  · exact Z.div _ _ h (Z.sinh _ h1)
  · exact H.div _ _ (Or.inr (H.sinh _ h1))

theorem natural_nan (H : Spreads A isNan) (mode : Mode) (xs ys : List F) (tau : F) (s : Tension F)
    (h : natural A mode xs ys tau = .ok s) (hn : BadTension A isNan tau ∨ (∃ x ∈ xs, isNan x) ∨ ∃ k < xs.length, isNan (get A ys k)) :
    ∀ f ∈ s.functions, isNan f.z0 ∨ isNan f.zf := by
  unfold natural at h
  split at h
  · cases h
  split at h
  · cases mode <;> cases h
  rename_i _ hl
  push_neg at hl
  dsimp only at h
  cases h
  intro f hf
  simp only [List.mem_map, List.mem_range] at hf
  obtain ⟨i, hi, rfl⟩ := hf
  have hz := zAt_nan H tau (get A xs) (get A ys) (xs.length - 1) (by omega)
    (by
      rcases hn with hn | ⟨x, hx, hn⟩ | ⟨k, hk, hn⟩
      · exact Or.inl fun i => H.sub _ _ (Or.inr (hn _))
      · obtain ⟨k, hk, e⟩ := List.mem_iff_getElem.1 hx
        exact Or.inr ⟨k, by omega, Or.inl (by simp [get, List.getD, hk, e, hn])⟩
      · exact Or.inr ⟨k, by omega, Or.inr hn⟩)
  rcases Nat.eq_zero_or_pos i with h0 | h0
  · right
    show isNan (zAt A tau (get A xs) (get A ys) (xs.length - 1) (i + 1))
    exact hz (i + 1) (by omega) (by omega)
  · left
    exact hz i h0 hi

theorem call_nan (f : Func F → F → F → F) (mode : Mode) (s : Tension F) (x y : F) (h : Tension.call A f mode s x = .ok y)
    (hf : ∀ g ∈ s.functions, isNan (f g s.tension x)) : isNan y := by
  unfold Tension.call at h
  cases hs : segment A mode s.domain x with
  | ub => rw [hs] at h; cases h
  | throw e => rw [hs] at h; cases h
  | ok i =>
    rw [hs] at h
    simp only [Outcome.bind] at h
    cases hg : s.functions[i]? with
    | none => rw [hg] at h; cases mode <;> cases h
    | some g =>
      rw [hg] at h
      cases h
      exact hf g (List.mem_of_getElem? hg)

/-! ## Tension spline trajectories -/

theorem knotTimes_length (t : F) (ds : List F) : (knotTimes A t ds).length = ds.length + 1 := by
  induction ds generalizing t with
  | nil => rfl
  | cons d ds ih => simp [knotTimes, ih]

theorem knotTimes_nan (H : Spreads A isNan) (t : F) (ds : List F) (h : isNan t ∨ ∃ d ∈ ds, isNan d) : ∃ x ∈ knotTimes A t ds, isNan x := by
  induction ds generalizing t with
  | nil =>
    rcases h with h | ⟨d, hd, _⟩
    · exact ⟨t, by simp [knotTimes], h⟩
    · simp at hd
  | cons d ds ih =>
    rcases h with h | ⟨e, he, hn⟩
    · exact ⟨t, by simp [knotTimes], h⟩
    · have : isNan (A.add t d) ∨ ∃ e ∈ ds, isNan e := by
        rcases List.mem_cons.1 he with rfl | he
        · exact Or.inl (H.add _ _ (Or.inr hn))
        · exact Or.inr ⟨e, he, hn⟩
      obtain ⟨x, hx, hn⟩ := ih (A.add t d) this
      exact ⟨x, by simp [knotTimes, hx], hn⟩

theorem tensionLoop_get (mode : Mode) (xs : List F) (ys : ℕ → List F) (tau : F) : ∀ (js : List ℕ) (ss : List (Tension F)),
    tensionLoop A mode xs ys tau js = .ok ss → ∀ (i j : ℕ) (s : Tension F), js[i]? = some j → ss[i]? = some s → natural A mode xs (ys j) tau = .ok s := by
  intro js
  induction js with
  | nil => intro ss _ i j s hj; simp at hj
  | cons j0 js ih =>
    intro ss h i j s hj hs
    unfold tensionLoop at h
    cases hn : natural A mode xs (ys j0) tau with
    | ub => rw [hn] at h; cases h
    | throw e => rw [hn] at h; cases h
    | ok s0 =>
      rw [hn] at h
      simp only [Outcome.bind] at h
      cases hr : tensionLoop A mode xs ys tau js with
      | ub => rw [hr] at h; cases h
      | throw e => rw [hr] at h; cases h
      | ok rest =>
        rw [hr] at h
        cases h
        cases i with
        | zero => simp at hj hs; subst hj hs; exact hn
        | succ i => simp at hj hs; exact ih rest hr i j s hj hs

/-- The splines of a joint are made of NaN. -/
def BadJoint (A : Arith F) (isNan : F → Prop) (tau : F) (ws : List (WayPoint F)) (j : ℕ) : Prop :=
  BadTension A isNan tau ∨ (∃ w ∈ ws.dropLast, isNan w.duration) ∨ ∃ w ∈ ws, isNan (get A w.angles j)

theorem spline_bad (H : Spreads A isNan) (mode : Mode) (d : ℕ) (tau t : F) (ws : List (WayPoint F)) (ss : List (Tension F)) (j : ℕ) (s : Tension F)
    (hj : j < d) (h : tensionSplines A mode d tau t ws = .ok ss) (hs : ss[j]? = some s) (hb : BadJoint A isNan tau ws j) :
    ∀ f ∈ s.functions, isNan f.z0 ∨ isNan f.zf := by
  have hn := tensionLoop_get mode _ _ tau (List.range d) ss h j j s (List.getElem?_range hj) hs
  apply natural_nan H mode _ _ tau s hn
  rcases hb with hb | ⟨w, hw, hb⟩ | ⟨w, hw, hb⟩
  · exact Or.inl hb
  · exact Or.inr (Or.inl (knotTimes_nan H _ _ (Or.inr ⟨w.duration, List.mem_map_of_mem hw, hb⟩)))
  · right; right
    obtain ⟨k, hk, e⟩ := List.mem_iff_getElem.1 hw
    refine ⟨k, ?_, ?_⟩
    · rw [knotTimes_length, List.length_map, List.length_dropLast]; omega
    · simp [get, List.getD, hk, e]; exact hb

theorem quintics_nan (amax : List F) (quintic : ℕ → Outcome (F × F × Coeffs F)) : ∀ (js : List ℕ) (r : Option (List (Coeffs F))),
    (∃ j ∈ js, ∀ q, quintic j = .ok q → within A (get A amax j) q.1 q.2.1 q.2.2 = false) → quintics A amax quintic js = .ok r → r = none := by
  intro js
  induction js with
  | nil => rintro r ⟨j, hj, _⟩; simp at hj
  | cons j js ih =>
    rintro r ⟨i, hi, hw⟩ h
    unfold quintics at h
    cases hq : quintic j with
    | ub => rw [hq] at h; cases h
    | throw e => rw [hq] at h; cases h
    | ok q =>
      rw [hq] at h
      simp only [Outcome.bind] at h
      split at h
      · rename_i hin
        rcases List.mem_cons.1 hi with rfl | hi
        · rw [hw q hq] at hin; cases hin
        · cases hr : quintics A amax quintic js with
          | ub => rw [hr] at h; cases h
          | throw e => rw [hr] at h; cases h
          | ok r' =>
            rw [hr] at h
            cases h
            rw [ih r' ⟨i, hi, hw⟩ hr]; rfl
      · cases h; rfl

theorem firstAttempt_nan (attempt : ℕ → Outcome (F × Option (List (Coeffs F)))) (h : ∀ i r, attempt i = .ok r → r.2 = none) :
    ∀ left i r, firstAttempt attempt left i = .ok r → r = none := by
  intro left
  induction left with
  | zero => intro i r h; cases h; rfl
  | succ left ih =>
    intro i r hr
    unfold firstAttempt at hr
    cases ha : attempt i with
    | ub => rw [ha] at hr; cases hr
    | throw e => rw [ha] at hr; cases hr
    | ok q =>
      rw [ha] at hr
      simp only [Outcome.bind, h i q ha] at hr
      exact ih _ _ hr

theorem nth_ok (mode : Mode) (ss : List (Tension F)) (j : ℕ) (s : Tension F) (h : nth mode ss j = .ok s) : ss[j]? = some s := by
  unfold nth at h
  cases hg : ss[j]? with
  | none => rw [hg] at h; cases mode <;> cases h
  | some v => rw [hg] at h; cases h; rfl

theorem leadingAttempt_nan (H : Spreads A isNan) (mode : Mode) (d : ℕ) (amax : List F) (tau : F) (ws : List (WayPoint F))
    (h : ∃ j < d, BadJoint A isNan tau ws j ∨ isNan (get A (wp A ws 0).rates j)) (i : ℕ) (r : F × Option (List (Coeffs F)))
    (hr : leadingAttempt A mode d amax tau ws i = .ok r) : r.2 = none := by
  obtain ⟨j, hj, hb⟩ := h
  unfold leadingAttempt at hr
  dsimp only at hr
  generalize A.div (A.mul (A.lit i) (wp A ws 0).duration) (A.lit 10) = t at hr
  cases hg : tensionSplines A mode d tau t ws with
  | ub => rw [hg] at hr; cases hr
  | throw e => rw [hg] at hr; cases hr
  | ok ss =>
    rw [hg] at hr
    simp only [Outcome.bind] at hr
    cases hq : quintics A amax (leadingQuintic A mode (wp A ws 0) ss t) (List.range d) with
    | ub => rw [hq] at hr; cases hr
    | throw e => rw [hq] at hr; cases hr
    | ok r' =>
      rw [hq] at hr
      cases hr
      refine quintics_nan amax _ (List.range d) r' ⟨j, List.mem_range.2 hj, ?_⟩ hq
      intro q hq
      apply within_nan H
      unfold leadingQuintic at hq
      dsimp only at hq
      generalize A.mul (A.lit 2) t = tt at hq
      cases hs : nth mode ss j with
      | ub => rw [hs] at hq; cases hq
      | throw e => rw [hs] at hq; cases hq
      | ok s =>
        rw [hs] at hq
        simp only [Outcome.bind] at hq
        cases h1 : Tension.slope A mode s tt with
        | ub => rw [h1] at hq; cases hq
        | throw e => rw [h1] at hq; cases hq
        | ok yd =>
          rw [h1] at hq
          simp only at hq
          cases h2 : Tension.value A mode s tt with
          | ub => rw [h2] at hq; cases hq
          | throw e => rw [h2] at hq; cases hq
          | ok y =>
            rw [h2] at hq
            cases hq
            apply quintic_nan H
            rcases hb with hb | hb
            · have hf := spline_bad H mode d tau t ws ss j s hj hg (nth_ok mode ss j s hs) hb
              exact Or.inr (Or.inr (Or.inl (call_nan _ mode s _ y h2 fun g hg => value_nan H g _ _ (hf g hg))))
            · exact Or.inr (Or.inl hb)

theorem trailingAttempt_nan (H : Spreads A isNan) (mode : Mode) (d : ℕ) (amax : List F) (ws : List (WayPoint F)) (ss : List (Tension F))
    (h : ∃ j < d, isNan (get A (wp A ws (ws.length - 1)).rates j)) (i : ℕ) (r : F × Option (List (Coeffs F)))
    (hr : trailingAttempt A mode d amax ws ss i = .ok r) : r.2 = none := by
  obtain ⟨j, hj, hb⟩ := h
  unfold trailingAttempt at hr
  dsimp only at hr
  generalize A.div (A.mul (A.lit i) (wp A ws (ws.length - 2)).duration) (A.lit 10) = t at hr
  cases hs : nth mode ss 0 with
  | ub => rw [hs] at hr; cases hr
  | throw e => rw [hs] at hr; cases hr
  | ok s0 =>
    rw [hs] at hr
    simp only [Outcome.bind] at hr
    cases hq : quintics A amax (trailingQuintic A mode (wp A ws (ws.length - 1)) ss (s0.domain.getLastD (A.lit 0)) t) (List.range d) with
    | ub => rw [hq] at hr; cases hr
    | throw e => rw [hq] at hr; cases hr
    | ok r' =>
      rw [hq] at hr
      cases hr
      refine quintics_nan amax _ (List.range d) r' ⟨j, List.mem_range.2 hj, ?_⟩ hq
      intro q hq
      apply within_nan H
      unfold trailingQuintic at hq
      dsimp only at hq
      cases hs : nth mode ss j with
      | ub => rw [hs] at hq; cases hq
      | throw e => rw [hs] at hq; cases hq
      | ok s =>
        rw [hs] at hq
        simp only [Outcome.bind] at hq
        cases h1 : Tension.slope A mode s (A.sub (s0.domain.getLastD (A.lit 0)) t) with
        | ub => rw [h1] at hq; cases hq
        | throw e => rw [h1] at hq; cases hq
        | ok yd =>
          rw [h1] at hq
          simp only at hq
          cases h2 : Tension.value A mode s (A.sub (s0.domain.getLastD (A.lit 0)) t) with
          | ub => rw [h2] at hq; cases hq
          | throw e => rw [h2] at hq; cases hq
          | ok y =>
            rw [h2] at hq
            cases hq
            apply quintic_nan H
            exact Or.inr (Or.inr (Or.inr hb))

theorem BadJoint.later {tau : F} {ws ws' : List (WayPoint F)} {j : ℕ} (h : Later A isNan ws ws') (b : BadJoint A isNan tau ws j) :
    BadJoint A isNan tau ws' j := by
  rcases b with b | ⟨w, hw, b⟩ | ⟨w, hw, b⟩
  · exact Or.inl b
  · obtain ⟨k, hk, e⟩ := List.mem_iff_getElem.1 hw
    rw [List.getElem_dropLast] at e
    rw [List.length_dropLast] at hk
    obtain ⟨w', hw', h1, h2, h3, h4⟩ := h.get k w (by rw [List.getElem?_eq_getElem (by omega), e])
    refine Or.inr (Or.inl ⟨w', ?_, h4 b⟩)
    rw [List.mem_iff_getElem?]
    exact ⟨k, by rw [List.getElem?_dropLast, h.length, if_pos hk]; exact hw'⟩
  · obtain ⟨k, hk, e⟩ := List.mem_iff_getElem.1 hw
    obtain ⟨w', hw', h1, h2, h3, h4⟩ := h.get k w (by rw [List.getElem?_eq_getElem hk, e])
    exact Or.inr (Or.inr ⟨w', List.mem_of_getElem? hw', by rw [h1]; exact b⟩)

theorem wp_get (ws : List (WayPoint F)) (k : ℕ) (h : k < ws.length) : ws[k]? = some (wp A ws k) := by
  simp [wp, List.getD, h]

/-- The rates of the ends, all configured. -/
def EndsSet (ws : List (WayPoint F)) : Prop :=
  ∀ w, ws[0]? = some w ∨ ws[ws.length - 1]? = some w → w.ratesConfigured = true

theorem endsSet_modify (ws : List (WayPoint F)) (i : ℕ) (q : ℚ) (h : EndsSet ws) : EndsSet (ws.modify i (stretchOne A q)) := by
  intro w hw
  simp only [List.getElem?_modify, List.length_modify] at hw
  rcases hw with hw | hw
  · cases h0 : ws[0]? with
    | none => rw [h0] at hw; simp at hw
    | some v =>
      rw [h0] at hw
      have hv := h v (Or.inl h0)
      by_cases e : i = 0
      · simp [e] at hw; rw [← hw]; exact hv
      · simp [e] at hw; rw [← hw]; exact hv
  · cases h0 : ws[ws.length - 1]? with
    | none => rw [h0] at hw; simp at hw
    | some v =>
      rw [h0] at hw
      have hv := h v (Or.inr h0)
      by_cases e : i = ws.length - 1
      · simp [e] at hw; rw [← hw]; exact hv
      · simp [e] at hw; rw [← hw]; exact hv

theorem leadingLoop_nan (H : Spreads A isNan) (mode : Mode) (d : ℕ) (amax : List F) (tau : F) : ∀ passes (ws : List (WayPoint F)),
    0 < ws.length → EndsSet ws → (∃ j < d, BadJoint A isNan tau ws j ∨ isNan (endRate A (wp A ws 0) j)) →
    ∀ r, leadingLoop A mode d amax tau passes ws ≠ some (.ok r) := by
  intro passes
  induction passes with
  | zero => intro ws _ _ _ r h; cases h
  | succ n ih =>
    intro ws hl hc hb r h
    have hc0 : (wp A ws 0).ratesConfigured = true := hc _ (Or.inl (wp_get ws 0 hl))
    have ha := firstAttempt_nan _ (leadingAttempt_nan H mode d amax tau ws
      (by obtain ⟨j, hj, hb⟩ := hb; exact ⟨j, hj, by rwa [rate_of _ hc0] at hb⟩)) 5 1
    unfold leadingLoop at h
    cases hf : firstAttempt (leadingAttempt A mode d amax tau ws) 5 1 with
    | ub => rw [hf] at h; cases h
    | throw e => rw [hf] at h; cases h
    | ok q =>
      rw [hf, ha q hf] at h
      dsimp only at h
      have lat := later_modify (A := A) (isNan := isNan) _ (kept_stretch H (11 / 10)) ws 0
      refine ih _ (by rw [lat.length]; exact hl) (endsSet_modify ws 0 _ hc) ?_ r h
      obtain ⟨j, hj, hb⟩ := hb
      refine ⟨j, hj, ?_⟩
      rcases hb with hb | hb
      · exact Or.inl (hb.later lat)
      · right
        obtain ⟨w', hw', _, _, k3, _⟩ := lat.get 0 _ (wp_get ws 0 hl)
        rw [wp_get (A := A) _ 0 (by rw [lat.length]; exact hl)] at hw'
        cases hw'
        rw [k3]; exact hb

theorem trailingLoop_nan (H : Spreads A isNan) (mode : Mode) (d : ℕ) (amax : List F) (tau lead : F) (qs : List (Coeffs F)) :
    ∀ passes (ws : List (WayPoint F)), 0 < ws.length → EndsSet ws → (∃ j < d, isNan (endRate A (wp A ws (ws.length - 1)) j)) →
    ∀ r, trailingLoop A mode d amax tau lead qs passes ws ≠ some (.ok r) := by
  intro passes
  induction passes with
  | zero => intro ws _ _ _ r h; cases h
  | succ n ih =>
    intro ws hl hc hb r h
    have hcn : (wp A ws (ws.length - 1)).ratesConfigured = true := hc _ (Or.inr (wp_get ws _ (by omega)))
    unfold trailingLoop at h
    dsimp only at h
    cases hg : tensionSplines A mode d tau (A.div (A.mul (A.lit 2) lead) (A.lit 2)) ws with
    | ub => rw [hg] at h; cases h
    | throw e => rw [hg] at h; cases h
    | ok ss =>
      rw [hg] at h
      dsimp only at h
      have ha := firstAttempt_nan _ (trailingAttempt_nan H mode d amax ws ss
        (by obtain ⟨j, hj, hb⟩ := hb; exact ⟨j, hj, by rwa [rate_of _ hcn] at hb⟩)) 5 1
      cases hf : firstAttempt (trailingAttempt A mode d amax ws ss) 5 1 with
      | ub => rw [hf] at h; cases h
      | throw e => rw [hf] at h; cases h
      | ok q =>
        rw [hf, ha q hf] at h
        dsimp only at h
        have lat := later_modify (A := A) (isNan := isNan) _ (kept_stretch H (11 / 10)) ws (ws.length - 2)
        refine ih _ (by rw [lat.length]; exact hl) (endsSet_modify ws _ _ hc) ?_ r h
        obtain ⟨j, hj, hb⟩ := hb
        refine ⟨j, hj, ?_⟩
        obtain ⟨w', hw', _, _, k3, _⟩ := lat.get (ws.length - 1) _ (wp_get ws _ (by omega))
        rw [wp_get (A := A) _ _ (by rw [lat.length]; omega)] at hw'
        cases hw'
        rw [lat.length, k3]; exact hb

theorem leadingLoop_later (H : Spreads A isNan) (mode : Mode) (d : ℕ) (amax : List F) (tau : F) : ∀ passes (ws ws2 : List (WayPoint F)) (t : F) (qs : List (Coeffs F)),
    EndsSet ws → leadingLoop A mode d amax tau passes ws = some (.ok (ws2, t, qs)) → Later A isNan ws ws2 ∧ EndsSet ws2 := by
  intro passes
  induction passes with
  | zero => intro ws ws2 t qs _ h; cases h
  | succ n ih =>
    intro ws ws2 t qs hc h
    unfold leadingLoop at h
    cases hf : firstAttempt (leadingAttempt A mode d amax tau ws) 5 1 with
    | ub => rw [hf] at h; cases h
    | throw e => rw [hf] at h; cases h
    | ok q =>
      rw [hf] at h
      cases q with
      | some q => cases h; exact ⟨Later.rfl' _, hc⟩
      | none =>
        dsimp only at h
        have lat := later_modify (A := A) (isNan := isNan) _ (kept_stretch H (11 / 10)) ws 0
        obtain ⟨l, c⟩ := ih _ ws2 t qs (endsSet_modify ws 0 _ hc) h
        exact ⟨lat.trans l, c⟩

theorem knotPass_later (H : Spreads A isNan) (mode : Mode) (d : ℕ) (amax : List F) (ss : List (Tension F)) :
    ∀ (is : List (ℕ × F)) (ws ws' : List (WayPoint F)) (b b' : Bool), knotPass A mode d amax ss is ws b = .ok (ws', b') → Later A isNan ws ws' := by
  intro is
  induction is with
  | nil => intro ws ws' b b' h; cases h; exact Later.rfl' _
  | cons ix is ih =>
    intro ws ws' b b' h
    obtain ⟨i, x⟩ := ix
    unfold knotPass at h
    cases hv : violating A mode amax ss x (List.range d) with
    | ub => rw [hv] at h; cases h
    | throw e => rw [hv] at h; cases h
    | ok v =>
      rw [hv] at h
      simp only [Outcome.bind] at h
      cases v with
      | none => exact ih _ _ _ _ h
      | some j => exact (later_stretchAt H ws i j).trans (ih _ _ _ _ h)

theorem knotLoop_later (H : Spreads A isNan) (mode : Mode) (d : ℕ) (amax : List F) (tau : F) : ∀ passes (ws ws' : List (WayPoint F)),
    knotLoop A mode d amax tau passes ws = some (.ok ws') → Later A isNan ws ws' := by
  intro passes
  induction passes with
  | zero => intro ws ws' h; cases h
  | succ n ih =>
    intro ws ws' h
    unfold knotLoop at h
    cases hb : (tensionSplines A mode d tau (A.lit 0) ws).bind fun ss => (nth mode ss 0).bind fun s =>
        knotPass A mode d amax ss (innerKnots A s.domain) ws true with
    | ub => rw [hb] at h; cases h
    | throw e => rw [hb] at h; cases h
    | ok r =>
      rw [hb] at h
      obtain ⟨ws1, b⟩ := r
      have hl : Later A isNan ws ws1 := by
        cases hg : tensionSplines A mode d tau (A.lit 0) ws with
        | ub => rw [hg] at hb; cases hb
        | throw e => rw [hg] at hb; cases hb
        | ok ss =>
          rw [hg] at hb
          simp only [Outcome.bind] at hb
          cases hn : nth mode ss 0 with
          | ub => rw [hn] at hb; cases hb
          | throw e => rw [hn] at hb; cases hb
          | ok s => rw [hn] at hb; exact knotPass_later H mode d amax ss _ _ _ _ _ hb
      cases b
      · exact hl.trans (ih _ _ h)
      · cases h; exact hl

theorem build_nan (H : Spreads A isNan) (mode : Mode) (d : ℕ) (hd : 0 < d) (amax : List F) (tau : F) (passes : ℕ) (ws : List (WayPoint F))
    (hl : 0 < ws.length) (h : BadTension A isNan tau ∨ Taint A isNan d ws) (r : TensionTrajectory F) :
    build A mode d amax tau passes ws ≠ some (.ok r) := by
  intro hr
  unfold build at hr
  cases hk : knotLoop A mode d amax tau passes ws with
  | none => rw [hk] at hr; cases hr
  | some o =>
  rw [hk] at hr
  cases o with
  | ub => cases hr
  | throw e => cases hr
  | ok ws1 =>
  dsimp only at hr
  have l1 := (knotLoop_later H mode d amax tau passes ws ws1 hk).trans (later_configureEnds (A := A) (isNan := isNan) ws1)
  have c1 : EndsSet (configureEnds A ws1) := by
    intro w hw
    rw [(later_configureEnds (A := A) (isNan := isNan) ws1).length] at hw
    exact ends_configured ws1 w hw
  generalize configureEnds A ws1 = cs at hr l1 c1
  have hlc : 0 < cs.length := by rw [l1.length]; exact hl
  cases hlead : leadingLoop A mode d amax tau passes cs with
  | none => rw [hlead] at hr; cases hr
  | some o =>
  rw [hlead] at hr
  cases o with
  | ub => cases hr
  | throw e => cases hr
  | ok q =>
  obtain ⟨ws2, t, qs⟩ := q
  dsimp only at hr
  obtain ⟨l2, c2⟩ := leadingLoop_later H mode d amax tau passes cs ws2 t qs c1 hlead
  rcases h with h | h
  · exact leadingLoop_nan H mode d amax tau passes cs hlc c1 ⟨0, hd, Or.inl (Or.inl h)⟩ _ hlead
  · obtain ⟨k, w, hw, ht⟩ := h.later l1
    rcases ht with ⟨j, hj, ht⟩ | ⟨hk, ht⟩ | ⟨hk | hk, j, hj, ht⟩
    · exact leadingLoop_nan H mode d amax tau passes cs hlc c1
        ⟨j, hj, Or.inl (Or.inr (Or.inr ⟨w, List.mem_of_getElem? hw, ht⟩))⟩ _ hlead
    · refine leadingLoop_nan H mode d amax tau passes cs hlc c1 ⟨0, hd, Or.inl (Or.inr (Or.inl ⟨w, ?_, ht⟩))⟩ _ hlead
      rw [List.mem_iff_getElem?]
      exact ⟨k, by rw [List.getElem?_dropLast, if_pos (by omega)]; exact hw⟩
    · subst hk
      rw [wp_get (A := A) cs 0 hlc] at hw
      cases hw
      exact leadingLoop_nan H mode d amax tau passes cs hlc c1 ⟨j, hj, Or.inr ht⟩ _ hlead
    · have hk' : k = cs.length - 1 := by omega
      subst hk'
      rw [wp_get (A := A) cs _ (by omega)] at hw
      cases hw
      refine trailingLoop_nan H mode d amax tau t qs passes ws2 (by rw [l2.length]; exact hlc) c2 ⟨j, hj, ?_⟩ _ hr
      obtain ⟨w', hw', _, _, k3, _⟩ := l2.get (cs.length - 1) _ (wp_get cs _ (by omega))
      rw [wp_get (A := A) ws2 _ (by rw [l2.length]; omega)] at hw'
      cases hw'
      rw [l2.length, k3]; exact ht

theorem tension_nan (H : Spreads A isNan) (mode : Mode) (d : ℕ) (hd : 0 < d) (amax : List F) (tau : F) (passes : ℕ) (ws : List (WayPoint F))
    (h : BadTension A isNan tau ∨ Taint A isNan d ws) (r : TensionTrajectory F) :
    tensionSplineInterpolation A mode d amax tau passes ws ≠ some (.ok r) := by
  intro hr
  unfold tensionSplineInterpolation at hr
  split at hr
  · cases hr
  · cases hr
  split at hr
  · cases hr
  · cases hr
  split at hr
  · cases hr
  rename_i hz
  split at hr
  · cases hr
  · cases hr
  have lat := later_initialise H d ws
  refine build_nan H mode d hd amax tau passes _ (by rw [lat.length]; omega) ?_ r hr
  rcases h with h | h
  · exact Or.inl h
  · exact Or.inr (h.later lat)

end Ecl.Nan
