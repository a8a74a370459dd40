import Verif.Spec.Time
import Verif.Lemmas.Converters

/-! Helper lemmas for C16–C22 and C68. -/
set_option autoImplicit false
set_option linter.unusedSimpArgs false

namespace Ecl.Time

theorem mk_release (s n : Int) : mk .release s n = .ok ⟨s, n⟩ := rfl

theorem mk_ok (m : Mode) (s n : Int) (h1 : 0 < s → 0 ≤ n) (h2 : s < 0 → n ≤ 0) :
    mk m s n = .ok ⟨s, n⟩ := by
  cases m
  · unfold mk assertThrow
    have : ((decide (0 < s) && decide (0 ≤ n)) || (decide (s < 0) && decide (n ≤ 0)) ||
      decide (s = 0)) = true := by
      simp only [Bool.or_eq_true, Bool.and_eq_true, decide_eq_true_eq]
      omega
    rw [this]; rfl
  · rfl

theorem mk_fields {m : Mode} {s n : Int} {r : Ts} (h : mk m s n = .ok r) : r = ⟨s, n⟩ := by
  cases m
  · unfold mk assertThrow at h
    simp only at h
    split at h
    · simpa using h.symm
    · simp at h
  · simpa [mk_release] using h.symm

theorem bind_eq_ok {α β : Type _} {x : Outcome α} {f : α → Outcome β} {b : β} :
    (x >>= f) = .ok b ↔ ∃ a, x = .ok a ∧ f a = .ok b := by
  cases x <;> simp

theorem addL_eq_ok {a b r : Int} : addL a b = .ok r ↔ InLong (a + b) ∧ a + b = r := by
  unfold addL; split <;> simp_all

theorem subL_eq_ok {a b r : Int} : subL a b = .ok r ↔ InLong (a - b) ∧ a - b = r := by
  unfold subL; split <;> simp_all

theorem normalise_total {s n : Int} {r : Int × Int} (h : normalise s n = .ok r) :
    r.1 * 1000000000 + r.2 = s * 1000000000 + n := by
  unfold normalise at h
  rw [bind_eq_ok] at h
  obtain ⟨q, hq, h⟩ := h
  have e : q.1 * 1000000000 + q.2 = s * 1000000000 + n := by
    split at hq
    · rw [bind_eq_ok] at hq
      obtain ⟨s', hs, hq⟩ := hq
      have := (addL_eq_ok.1 hs).2
      cases hq; simp only; omega
    · split at hq
      · rw [bind_eq_ok] at hq
        obtain ⟨s', hs, hq⟩ := hq
        have := (subL_eq_ok.1 hs).2
        cases hq; simp only; omega
      · cases hq; rfl
  simp only [Outcome.ok.injEq] at h
  subst h
  obtain ⟨q1, q2⟩ := q
  simp only at e ⊢
  split <;> split <;> simp_all <;> omega

/-- Normalisation succeeds, and normalises, when the nanoseconds are a sum of two normalised ones. -/
theorem normalise_norm {s n : Int} (h1 : -2000000000 < n) (h2 : n < 2000000000)
    (hs1 : 1000000000 ≤ n → 0 ≤ s) (hs2 : n ≤ -1000000000 → s ≤ 0)
    (hr : Representable (s * 1000000000 + n)) (hs : InLong s) :
    ∃ r, normalise s n = .ok r ∧ Ts.Norm ⟨r.1, r.2⟩ := by
  unfold normalise
  unfold Representable at hr
  unfold InLong longMin longMax at hs
  by_cases c1 : 1000000000 ≤ n
  · have : addL s 1 = .ok (s + 1) := 
      addL_eq_ok.2 ⟨by unfold InLong longMin longMax; omega, rfl⟩
    simp only [if_pos c1, this, Outcome.bind_ok]
    refine ⟨_, rfl, ?_⟩
    unfold Ts.Norm
    split <;> split <;> simp_all <;> omega
  · by_cases c2 : n ≤ -1000000000
    · have : subL s 1 = .ok (s - 1) := 
        subL_eq_ok.2 ⟨by unfold InLong longMin longMax; omega, rfl⟩
      simp only [if_neg c1, if_pos c2, this, Outcome.bind_ok]
      refine ⟨_, rfl, ?_⟩
      unfold Ts.Norm
      split <;> split <;> simp_all <;> omega
    · simp only [if_neg c1, if_neg c2, Outcome.bind_ok]
      refine ⟨_, rfl, ?_⟩
      unfold Ts.Norm
      split <;> split <;> simp_all <;> omega

theorem add_steps {a b : Ts} (ha : a.Norm) (hb : b.Norm) (hia : a.InRange) (hib : b.InRange)
    (hr : Representable (a.total + b.total)) :
    addL a.sec b.sec = .ok (a.sec + b.sec) ∧ addL a.nsec b.nsec = .ok (a.nsec + b.nsec) ∧
      ∃ r, normalise (a.sec + b.sec) (a.nsec + b.nsec) = .ok r ∧ Ts.Norm ⟨r.1, r.2⟩ := by
  obtain ⟨a1, a2, a3, a4⟩ := ha
  obtain ⟨b1, b2, b3, b4⟩ := hb
  simp only [Representable, Ts.total, Ts.InRange, InLong, longMin, longMax] at *
  have hs : InLong (a.sec + b.sec) := by unfold InLong longMin longMax; omega
  refine ⟨addL_eq_ok.2 ⟨hs, rfl⟩, addL_eq_ok.2 ⟨by unfold InLong longMin longMax; omega, rfl⟩, ?_⟩
  exact normalise_norm (by omega) (by omega) (by omega) (by omega)
    (by unfold Representable; omega) hs

theorem borrow_total (s n : Int) :
    (borrow s n).1 * 1000000000 + (borrow s n).2 = s * 1000000000 + n := by
  unfold borrow
  split
  · simp only; omega
  · split
    · simp only; omega
    · rfl

theorem borrow_norm {s n : Int} (h1 : -1000000000 < n) (h2 : n < 1000000000) :
    Ts.Norm ⟨(borrow s n).1, (borrow s n).2⟩ := by
  unfold borrow Ts.Norm
  split
  · simp only; omega
  · split
    · simp only; omega
    · simp only; omega

theorem sub_same_sign (m : Mode) {a b : Ts} (ha : a.Norm) (hb : b.Norm) (hia : a.InRange)
    (hib : b.InRange) (hs : (0 ≤ a.total ∧ 0 ≤ b.total) ∨ (a.total ≤ 0 ∧ b.total ≤ 0))
    (hr : InLong (a.sec - b.sec)) :
    ∃ r, sub m a b = .ok r ∧ subAssign a b = .ok r ∧ r.Norm ∧ r.total = a.total - b.total := by
  obtain ⟨a1, a2, a3, a4⟩ := ha
  obtain ⟨b1, b2, b3, b4⟩ := hb
  simp only [Representable, Ts.total, Ts.InRange, InLong, longMin, longMax] at *
  have e1 : subL a.sec b.sec = .ok (a.sec - b.sec) :=
    subL_eq_ok.2 ⟨by unfold InLong longMin longMax; omega, rfl⟩
  have e2 : subL a.nsec b.nsec = .ok (a.nsec - b.nsec) :=
    subL_eq_ok.2 ⟨by unfold InLong longMin longMax; omega, rfl⟩
  have hn := borrow_norm (s := a.sec - b.sec) (n := a.nsec - b.nsec) (by omega) (by omega)
  have ht := borrow_total (a.sec - b.sec) (a.nsec - b.nsec)
  refine ⟨⟨(borrow (a.sec - b.sec) (a.nsec - b.nsec)).1,
    (borrow (a.sec - b.sec) (a.nsec - b.nsec)).2⟩, ?_, ?_, hn, ?_⟩
  · unfold sub
    simp only [e1, e2, Outcome.bind_ok]
    exact mk_ok m _ _ hn.2.2.1 hn.2.2.2
  · unfold subAssign
    simp only [e1, e2, Outcome.bind_ok]
  · simp only; omega

theorem Ts.Valid.norm {a : Ts} (h : a.Valid) : a.Norm := by
  unfold Ts.Valid at h; unfold Ts.Norm; omega

theorem Ts.Valid.total_nonneg {a : Ts} (h : a.Valid) : 0 ≤ a.total := by
  unfold Ts.Valid at h; unfold Ts.total; omega

theorem Ts.Valid.inRange {a : Ts} (h : a.Valid) (hs : a.sec ≤ longMax) : a.InRange := by
  unfold Ts.Valid at h; unfold longMax at hs
  unfold Ts.InRange InLong longMin longMax; omega

theorem sub_clock (m : Mode) {a b : Ts} (ha : a.Valid) (hb : b.Valid) (hia : a.sec ≤ longMax)
    (hib : b.sec ≤ longMax) :
    ∃ r, sub m a b = .ok r ∧ r.Norm ∧ r.total = a.total - b.total := by
  obtain ⟨r, h1, _, h2, h3⟩ := sub_same_sign m ha.norm hb.norm (ha.inRange hia) (hb.inRange hib)
    (.inl ⟨ha.total_nonneg, hb.total_nonneg⟩) (by
      simp only [Ts.Valid, longMax, longMin, InLong] at *; omega)
  exact ⟨r, h1, h2, h3⟩

theorem lt_iff {a b : Ts} (ha : a.Norm) (hb : b.Norm) : lt a b = true ↔ a.total < b.total := by
  unfold Ts.Norm at ha hb
  unfold lt Ts.total
  split
  · simp; omega
  · split
    · split <;> simp <;> omega
    · simp; omega

theorem gt_iff {a b : Ts} (ha : a.Norm) (hb : b.Norm) : gt a b = true ↔ b.total < a.total := by
  unfold Ts.Norm at ha hb
  unfold gt Ts.total
  split
  · simp; omega
  · split
    · split <;> simp <;> omega
    · simp; omega

theorem toLong_small {n : Nat} (h : n < 9223372036854775808) : toLong n = n := by
  unfold toLong
  have : n % 18446744073709551616 = n := Nat.mod_eq_of_lt (by omega)
  simp [this, h]

theorem diffs_sum : ∀ (ts : List Int) (t₀ : Int),
    (diffs t₀ ts).sum = (ts.getLast?.getD t₀) - t₀ := by
  intro ts
  induction ts with
  | nil => intro t₀; simp [diffs]
  | cons t ts ih =>
    intro t₀
    rw [diffs, List.sum_cons, ih]
    cases h : ts.getLast? with
    | none =>
      have : ts = [] := List.getLast?_eq_none_iff.1 h
      subst this; simp
    | some x =>
      have : (t :: ts).getLast? = some x := by rw [List.getLast?_cons, h]; rfl
      rw [this]; simp

/-! ### Snooze and watches -/

theorem bump_total (p tv : Ts) : (bump p tv).total = tv.total + p.total := by
  unfold bump Ts.total; split <;> simp only <;> omega

theorem bump_bounds {p tv : Ts} (hp : p.Valid) (h0 : 0 ≤ tv.nsec) (h1 : tv.nsec ≤ 1000000000)
    (hs : 0 ≤ tv.sec) :
    0 ≤ (bump p tv).nsec ∧ (bump p tv).nsec ≤ 1000000000 ∧ 0 ≤ (bump p tv).sec := by
  unfold Ts.Valid at hp
  unfold bump; split <;> simp only <;> omega

/-- Readings that are still before the wake-up time under way never trigger a resynchronisation. -/
theorem validate_on_time (v : Bool) (p tv now : Ts) (rest : List Ts) (h1 : tv.nsec ≤ 1000000000)
    (hv : now.Valid) (h : now.total < tv.total) :
    validate v p tv (now :: rest) = some (tv, rest) := by
  have : later now tv = false := by
    unfold later
    unfold Ts.total at h
    unfold Ts.Valid at hv
    simp only [Bool.or_eq_false_iff, Bool.and_eq_false_iff, decide_eq_false_iff_not]
    omega
  simp [validate, this]

theorem snooze_on_time (v : Bool) (p tv : Ts) (rs : List Ts) (hp : p.Valid) (h0 : 0 ≤ tv.nsec)
    (h1 : tv.nsec ≤ 1000000000) (hs : 0 ≤ tv.sec) (hlen : rs.length = if v then 2 else 1)
    (hr : ∀ r ∈ rs, r.Valid ∧ r.total < tv.total + p.total) :
    snooze v p tv rs = some (bump p tv, []) := by
  obtain ⟨b0, b1, b2⟩ := bump_bounds hp h0 h1 hs
  have hb : ∀ r ∈ rs, r.Valid ∧ r.total < (bump p tv).total := by
    intro r hm; rw [bump_total]; exact hr r hm
  unfold snooze addPeriod
  cases v
  · simp only [Bool.false_eq_true, if_false] at hlen ⊢
    obtain ⟨a, rfl⟩ := List.length_eq_one_iff.1 hlen
    obtain ⟨h2, h3⟩ := hb a (by simp)
    simp only [Option.bind_some]
    exact validate_on_time _ _ _ _ _ b1 h2 h3
  · simp only [if_true] at hlen ⊢
    match rs, hlen with
    | [a, b], _ =>
      obtain ⟨h2, h3⟩ := hb a (by simp)
      obtain ⟨h4, h5⟩ := hb b (by simp)
      rw [validate_on_time _ _ _ _ _ b1 h2 h3, Option.bind_some]
      exact validate_on_time _ _ _ _ _ b1 h4 h5

/-- Splits are the differences of consecutive clock readings. -/
theorem watchSplits_eq (m : Mode) (start : Ts) : ∀ (ts : List Ts) (prev : Ts),
    prev.Valid → prev.sec ≤ longMax → (∀ t ∈ ts, t.Valid ∧ t.sec ≤ longMax) →
    ∃ rs, watchSplits m ⟨start, prev⟩ ts = .ok (⟨start, ts.getLast?.getD prev⟩, rs) ∧
      rs.map Ts.total = diffs prev.total (ts.map Ts.total) := by
  intro ts
  induction ts with
  | nil => intro prev _ _ _; exact ⟨[], rfl, rfl⟩
  | cons t ts ih =>
    intro prev hv hl h
    obtain ⟨tv, tl⟩ := h t (by simp)
    obtain ⟨r, h1, _, h2⟩ := sub_clock m tv hv tl hl
    obtain ⟨rs, h3, h4⟩ := ih t tv tl (fun u hu => h u (by simp [hu]))
    refine ⟨r :: rs, ?_, by simp [diffs, h2, h4]⟩
    simp only [watchSplits, watchSplit, h1, Outcome.bind_ok, h3]
    congr 2
    simp [List.getLast?_cons]

end Ecl.Time
