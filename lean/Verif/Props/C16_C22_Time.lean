import Verif.Lemmas.Time

/-!
# C16–C22: time

C16 addition, C17 subtraction, C18 comparison, C19 sleeping, C20 snoozing, C21 stop watches, C22
text.
-/
set_option autoImplicit false
set_option linter.unusedSimpArgs false

namespace Ecl.Props
open Ecl.Time

/-! ## C16 -/

/-- **C16**: whenever `a+b` or `a+=b` returns, its value is exactly the sum, for all timestamps
(normalised or not). -/
theorem C16_exact (m : Mode) (a b r : Ts) :
    (add m a b = .ok r → r.total = a.total + b.total) ∧
      (addAssign a b = .ok r → r.total = a.total + b.total) := by
  constructor
  · intro h
    unfold add at h
    simp only [bind_eq_ok, addL_eq_ok] at h
    obtain ⟨s, ⟨_, rfl⟩, n, ⟨_, rfl⟩, q, hq, h⟩ := h
    have := normalise_total hq
    rw [mk_fields h]
    simp only [Ts.total]; omega
  · intro h
    unfold addAssign at h
    simp only [bind_eq_ok, addL_eq_ok] at h
    obtain ⟨s, ⟨_, rfl⟩, n, ⟨_, rfl⟩, q, hq, h⟩ := h
    have := normalise_total hq
    cases h
    simp only [Ts.total]; omega

/-- **C16**: for normalised timestamps whose sum is representable, both operators return the
normalised timestamp of the exact sum; nothing overflows and no exception is thrown. -/
theorem C16_normalised (m : Mode) (a b : Ts) (ha : a.Norm) (hb : b.Norm) (hia : a.InRange)
    (hib : b.InRange) (hr : Representable (a.total + b.total)) :
    ∃ r, add m a b = .ok r ∧ addAssign a b = .ok r ∧ r.Norm ∧ r.total = a.total + b.total := by
  obtain ⟨h1, h2, q, h3, h4⟩ := add_steps ha hb hia hib hr
  have e : add m a b = .ok ⟨q.1, q.2⟩ := by
    unfold add; simp only [h1, h2, h3, Outcome.bind_ok]
    exact mk_ok m _ _ h4.2.2.1 h4.2.2.2
  refine ⟨⟨q.1, q.2⟩, e, ?_, h4, (C16_exact m a b _).1 e⟩
  unfold addAssign; simp only [h1, h2, h3, Outcome.bind_ok]

example : add .debug ⟨1, 600000000⟩ ⟨-1, -700000000⟩ = .ok ⟨0, -100000000⟩ ∧
    (⟨1, 600000000⟩ : Ts).Norm ∧ (⟨-1, -700000000⟩ : Ts).Norm := by decide

/-! ## C17 -/

/-- **C17**: whenever `a-b` or `a-=b` returns, its value is exactly the difference. -/
theorem C17_exact (m : Mode) (a b r : Ts) :
    (sub m a b = .ok r → r.total = a.total - b.total) ∧
      (subAssign a b = .ok r → r.total = a.total - b.total) := by
  have ht := borrow_total (a.sec - b.sec) (a.nsec - b.nsec)
  constructor
  · intro h
    unfold sub at h
    simp only [bind_eq_ok, subL_eq_ok] at h
    obtain ⟨s, ⟨_, rfl⟩, n, ⟨_, rfl⟩, h⟩ := h
    rw [mk_fields h]
    simp only [Ts.total]; omega
  · intro h
    unfold subAssign at h
    simp only [bind_eq_ok, subL_eq_ok] at h
    obtain ⟨s, ⟨_, rfl⟩, n, ⟨_, rfl⟩, h⟩ := h
    cases h
    simp only [Ts.total]; omega

/-- **C17, partial**: for normalised timestamps of the same sign both operators return the
normalised timestamp of the exact difference.  Missing: operands of opposite signs
(`C17_fails_opposite_signs`) and an intermediate overflow at the extreme of `long`
(`C17_fails_overflow`). -/
theorem C17_same_sign_partial (m : Mode) (a b : Ts) (ha : a.Norm) (hb : b.Norm) (hia : a.InRange)
    (hib : b.InRange) (hs : (0 ≤ a.total ∧ 0 ≤ b.total) ∨ (a.total ≤ 0 ∧ b.total ≤ 0))
    (hr : InLong (a.sec - b.sec)) :
    ∃ r, sub m a b = .ok r ∧ subAssign a b = .ok r ∧ r.Norm ∧ r.total = a.total - b.total :=
  sub_same_sign m ha hb hia hib hs hr

/-- **C17, refuted**: with operands of opposite signs the result need not be normalised. -/
theorem C17_fails_opposite_signs (m : Mode) :
    (⟨0, 900000000⟩ : Ts).Norm ∧ (⟨0, -900000000⟩ : Ts).Norm ∧
      sub m ⟨0, 900000000⟩ ⟨0, -900000000⟩ = .ok ⟨0, 1800000000⟩ ∧
      ¬ (⟨0, 1800000000⟩ : Ts).Norm := by
  cases m <;> decide

/-- **C17, refuted**: a representable difference of normalised timestamps can overflow on the way. -/
theorem C17_fails_overflow (m : Mode) :
    (⟨0, -5⟩ : Ts).Norm ∧ (⟨longMin, 0⟩ : Ts).Norm ∧
      Representable ((⟨0, -5⟩ : Ts).total - (⟨longMin, 0⟩ : Ts).total) ∧
      sub m ⟨0, -5⟩ ⟨longMin, 0⟩ = .ub := by
  refine ⟨by decide, by decide, ?_, ?_⟩
  · unfold Representable Ts.total longMin; norm_num
  · cases m <;> decide

example : sub .debug ⟨5, 100⟩ ⟨3, 200⟩ = .ok ⟨1, 999999900⟩ ∧
    sub .release ⟨-5, -100⟩ ⟨-3, -200⟩ = .ok ⟨-1, -999999900⟩ := by decide

/-! ## C18 -/

/-- **C18**: on normalised timestamps the six comparison operators agree with the order of the
durations. -/
theorem C18_order (a b : Ts) (ha : a.Norm) (hb : b.Norm) :
    (lt a b = true ↔ a.total < b.total) ∧ (le a b = true ↔ a.total ≤ b.total) ∧
    (gt a b = true ↔ b.total < a.total) ∧ (ge a b = true ↔ b.total ≤ a.total) ∧
    (eq a b = true ↔ a.total = b.total) ∧ (ne a b = true ↔ a.total ≠ b.total) := by
  have h1 := lt_iff ha hb
  have h2 := gt_iff ha hb
  refine ⟨h1, ?_, h2, ?_, ?_, ?_⟩
  · unfold Ts.Norm at ha hb
    unfold le Ts.total
    split
    · simp; omega
    · split
      · split <;> simp <;> omega
      · simp; omega
  · unfold Ts.Norm at ha hb
    unfold ge Ts.total
    split
    · simp; omega
    · split
      · split <;> simp <;> omega
      · simp; omega
  · unfold Ts.Norm at ha hb
    unfold eq Ts.total
    simp only [Bool.and_eq_true, decide_eq_true_eq]
    omega
  · unfold Ts.Norm at ha hb
    unfold ne Ts.total
    simp only [Bool.not_eq_true', Bool.and_eq_false_iff, decide_eq_false_iff_not]
    omega

/-- **C18**: normalised timestamps with equal durations are the same timestamp, so the order is
total and antisymmetric on them. -/
theorem C18_antisymm (a b : Ts) (ha : a.Norm) (hb : b.Norm) (h1 : le a b = true)
    (h2 : le b a = true) : a = b := by
  have e1 := (C18_order a b ha hb).2.1.1 h1
  have e2 := (C18_order b a hb ha).2.1.1 h2
  obtain ⟨as, an⟩ := a
  obtain ⟨bs, bn⟩ := b
  simp only [Ts.Norm, Ts.total, Ts.mk.injEq] at *
  omega

example : lt ⟨0, -5⟩ ⟨0, 3⟩ = true ∧ lt ⟨-1, 0⟩ ⟨0, -5⟩ = true := by decide

/-! ## C19 -/

/-- **C19**: every constructor stores a valid `timespec` of exactly the requested duration. -/
theorem C19_constructor (k : SleepKind) (n : Nat) (hn : n < 9223372036854775808) :
    (sleepCtor k n).Valid ∧ (sleepCtor k n).total = n * unit k := by
  unfold Ts.Valid Ts.total
  cases k <;> simp only [sleepCtor, unit]
  · rw [toLong_small hn]; omega
  · rw [toLong_small (by omega), toLong_small (by omega)]; omega
  · rw [toLong_small (by omega), toLong_small (by omega)]; omega
  · rw [toLong_small (by omega), toLong_small (by omega)]; omega

/-- **C19** for `Sleep` and `MilliSleep`: in every sequence of calls, with or without argument, each
`timespec` handed to the operating system is valid and amounts to the wanted duration. -/
theorem C19_sleep_millisleep (k : SleepKind) (hk : k = .sec ∨ k = .milli) (n₀ : Nat)
    (ops : List SleepOp) (h₀ : n₀ < 9223372036854775808)
    (h : ∀ n, SleepOp.call n ∈ ops → n < 9223372036854775808) :
    (sleepRuns k (sleepCtor k n₀) ops).map Ts.total = (wanted k (n₀ * unit k) ops).map Int.ofNat ∧
      ∀ r ∈ sleepRuns k (sleepCtor k n₀) ops, r.Valid := by
  have hcall : ∀ (req : Ts) (n : Nat), sleepReq k req (.call n) = sleepCtor k n := by
    rcases hk with rfl | rfl <;> intro req n <;> rfl
  have gen : ∀ (ops : List SleepOp) (req : Ts) (last : Nat), req.Valid → req.total = last →
      (∀ n, SleepOp.call n ∈ ops → n < 9223372036854775808) →
      (sleepRuns k req ops).map Ts.total = (wanted k last ops).map Int.ofNat ∧
        ∀ r ∈ sleepRuns k req ops, r.Valid := by
    intro ops
    induction ops with
    | nil => intro req last _ _ _; simp [sleepRuns, wanted]
    | cons op ops ih =>
      intro req last hv ht hn
      have hn' : ∀ n, SleepOp.call n ∈ ops → n < 9223372036854775808 :=
        fun n hm => hn n (by simp [hm])
      cases op with
      | fixed =>
        obtain ⟨i1, i2⟩ := ih req last hv ht hn'
        simp only [sleepRuns, sleepReq, wanted, List.map_cons, i1, ht]
        refine ⟨by simp, ?_⟩
        intro r hr
        rcases List.mem_cons.1 hr with rfl | hr
        · exact hv
        · exact i2 r hr
      | call n =>
        obtain ⟨v, t⟩ := C19_constructor k n (hn n (by simp))
        obtain ⟨i1, i2⟩ := ih (sleepCtor k n) (n * unit k) v (by rw [t]; simp) hn'
        simp only [sleepRuns, hcall, wanted, List.map_cons, i1, t]
        refine ⟨by simp, ?_⟩
        intro r hr
        rcases List.mem_cons.1 hr with rfl | hr
        · exact v
        · exact i2 r hr
  obtain ⟨v, t⟩ := C19_constructor k n₀ h₀
  exact gen ops _ _ v (by rw [t]; simp) h

/-- **C19** for `Sleep` with a `Duration`: a non-negative normalised duration is passed on as it
is. -/
theorem C19_duration (d : Ts) (hd : d.Norm) (h : 0 ≤ d.total) :
    (sleepDuration d).Valid ∧ (sleepDuration d).total = d.total := by
  unfold Ts.Norm at hd
  unfold Ts.total at h
  unfold sleepDuration Ts.Valid
  refine ⟨?_, rfl⟩
  simp only; omega

/-- **C19, partial**, for `MicroSleep` and `NanoSleep`: right as long as the object was constructed
for less than a second and every argument is below a second.  Missing: everything else, see the two
refutations. -/
theorem C19_micro_nano_partial (k : SleepKind) (hk : k = .micro ∨ k = .nano) (n₀ : Nat)
    (ops : List SleepOp) (h₀ : n₀ * unit k < 1000000000)
    (h : ∀ n, SleepOp.call n ∈ ops → n * unit k < 1000000000) :
    (sleepRuns k (sleepCtor k n₀) ops).map Ts.total = (wanted k (n₀ * unit k) ops).map Int.ofNat ∧
      ∀ r ∈ sleepRuns k (sleepCtor k n₀) ops, r.Valid := by
  have hcall : ∀ (req : Ts) (n : Nat), req.sec = 0 → n * unit k < 1000000000 →
      (sleepReq k req (.call n)).sec = 0 ∧ (sleepReq k req (.call n)).Valid ∧
        (sleepReq k req (.call n)).total = ((n * unit k : Nat) : Int) := by
    rcases hk with rfl | rfl <;> intro req n hs hn <;> simp only [unit] at hn ⊢ <;>
      simp only [sleepReq, Ts.Valid, Ts.total, hs]
    · rw [toLong_small (by omega)]; refine ⟨trivial, ?_⟩; omega
    · rw [toLong_small (by omega)]; refine ⟨trivial, ?_⟩; omega
  have gen : ∀ (ops : List SleepOp) (req : Ts) (last : Nat), req.sec = 0 → req.Valid →
      req.total = last → (∀ n, SleepOp.call n ∈ ops → n * unit k < 1000000000) →
      (sleepRuns k req ops).map Ts.total = (wanted k last ops).map Int.ofNat ∧
        ∀ r ∈ sleepRuns k req ops, r.Valid := by
    intro ops
    induction ops with
    | nil => intro req last _ _ _ _; simp [sleepRuns, wanted]
    | cons op ops ih =>
      intro req last h0 hv ht hn
      have hn' : ∀ n, SleepOp.call n ∈ ops → n * unit k < 1000000000 :=
        fun n hm => hn n (by simp [hm])
      cases op with
      | fixed =>
        obtain ⟨i1, i2⟩ := ih req last h0 hv ht hn'
        simp only [sleepRuns, sleepReq, wanted, List.map_cons, i1, ht]
        refine ⟨by simp, ?_⟩
        intro r hr
        rcases List.mem_cons.1 hr with rfl | hr
        · exact hv
        · exact i2 r hr
      | call n =>
        obtain ⟨c0, c1, c2⟩ := hcall req n h0 (hn n (by simp))
        obtain ⟨i1, i2⟩ := ih _ (n * unit k) c0 c1 c2 hn'
        simp only [sleepRuns, wanted, List.map_cons, i1, c2]
        refine ⟨by simp, ?_⟩
        intro r hr
        rcases List.mem_cons.1 hr with rfl | hr
        · exact c1
        · exact i2 r hr
  have hb : n₀ < 9223372036854775808 := by
    rcases hk with rfl | rfl <;> simp only [unit] at h₀ <;> omega
  obtain ⟨v, t⟩ := C19_constructor k n₀ hb
  refine gen ops _ _ ?_ v (by rw [t]; simp) h
  unfold Ts.Valid Ts.total at *
  have : ((n₀ : Int) * (unit k : Int)) < 1000000000 := by exact_mod_cast h₀
  omega

/-- **C19, refuted**: a call argument of a second or more makes `MicroSleep`/`NanoSleep` hand an
invalid `timespec` to the operating system. -/
theorem C19_fails_invalid_request :
    ¬ (sleepReq .micro (sleepCtor .micro 0) (.call 1000000)).Valid ∧
      ¬ (sleepReq .nano (sleepCtor .nano 0) (.call 1000000000)).Valid := by decide

/-- **C19, refuted**: the seconds configured at construction are added to every later call. -/
theorem C19_fails_stale_seconds :
    (sleepReq .micro (sleepCtor .micro 2000000) (.call 5)).total = 2000005000 ∧
      (sleepReq .nano (sleepCtor .nano 3000000000) (.call 7)).total = 3000000007 := by decide

example : sleepRuns .milli (sleepCtor .milli 1500) [.fixed, .call 20, .fixed]
    = [⟨1, 500000000⟩, ⟨0, 20000000⟩, ⟨0, 20000000⟩] := by decide

/-! ## C20 -/

/-- **C20, partial**: as long as every call is made before its wake-up time, the `k`-th call asks to
be woken at exactly `t0 + k*p`, for every number of calls, with and without validation.  The
requested `timespec` has `0 ≤ nsec ≤ 10^9`; missing: `nsec < 10^9` (see `C20_fails_boundary`), and
late calls when validation is disabled (`C20_fails_disabled_validation`). -/
theorem C20_schedule_partial (v : Bool) (p t0 : Ts) (rss : List (List Ts)) (hp : p.Valid)
    (ht : t0.Valid)
    (hlen : ∀ rs ∈ rss, rs.length = if v then 2 else 1)
    (hon : ∀ (k : Nat) (rs : List Ts), rss[k]? = some rs →
      ∀ r ∈ rs, r.Valid ∧ r.total < t0.total + (k + 1) * p.total) :
    ∃ ws, snoozes v p t0 rss = some ws ∧ ws.length = rss.length ∧
      ∀ (k : Nat) (w : Ts), ws[k]? = some w → w.total = t0.total + (k + 1) * p.total ∧
        0 ≤ w.sec ∧ 0 ≤ w.nsec ∧ w.nsec ≤ 1000000000 := by
  have gen : ∀ (rss : List (List Ts)) (tv : Ts) (j : Nat), 0 ≤ tv.nsec → tv.nsec ≤ 1000000000 →
      0 ≤ tv.sec → tv.total = t0.total + j * p.total →
      (∀ rs ∈ rss, rs.length = if v then 2 else 1) →
      (∀ (k : Nat) (rs : List Ts), rss[k]? = some rs →
        ∀ r ∈ rs, r.Valid ∧ r.total < t0.total + ((j + k : Nat) + 1) * p.total) →
      ∃ ws, snoozes v p tv rss = some ws ∧ ws.length = rss.length ∧
        ∀ (k : Nat) (w : Ts), ws[k]? = some w → w.total = t0.total + ((j + k : Nat) + 1) * p.total ∧
          0 ≤ w.sec ∧ 0 ≤ w.nsec ∧ w.nsec ≤ 1000000000 := by
    intro rss
    induction rss with
    | nil => intro tv j _ _ _ _ _ _; exact ⟨[], rfl, rfl, by simp⟩
    | cons rs rss ih =>
      intro tv j h0 h1 hs hj hl ho
      have e : snooze v p tv rs = some (bump p tv, []) := by
        refine snooze_on_time v p tv rs hp h0 h1 hs (hl rs (by simp)) ?_
        intro r hr
        obtain ⟨r1, r2⟩ := ho 0 rs (by simp) r hr
        refine ⟨r1, ?_⟩
        rw [hj]
        have : t0.total + ((j + 0 : Nat) + 1 : Int) * p.total
            = t0.total + j * p.total + p.total := by push_cast; ring
        omega
      obtain ⟨b0, b1, b2⟩ := bump_bounds hp h0 h1 hs
      have hb : (bump p tv).total = t0.total + ((j + 1 : Nat) : Int) * p.total := by
        rw [bump_total, hj]; push_cast; ring
      obtain ⟨ws, w1, w2, w3⟩ := ih (bump p tv) (j + 1) b0 b1 b2 hb (fun rs hm => hl rs (by simp [hm]))
        (by
          intro k rs' hk r hr
          have := ho (k + 1) rs' (by simpa using hk) r hr
          rw [show j + 1 + k = j + (k + 1) by omega]
          exact this)
      refine ⟨bump p tv :: ws, ?_, by simp [w2], ?_⟩
      · simp [snoozes, e, w1]
      · intro k w hk
        cases k with
        | zero =>
          simp at hk; subst hk
          exact ⟨by rw [hb]; simp, b2, b0, b1⟩
        | succ k =>
          have := w3 k w (by simpa using hk)
          rw [show j + (k + 1) = j + 1 + k by omega]
          exact this
  unfold Ts.Valid at ht
  obtain ⟨ws, w1, w2, w3⟩ := gen rss t0 0 ht.2.1 (by omega) ht.1 (by simp) hlen
    (by simpa using hon)
  exact ⟨ws, w1, w2, by simpa using w3⟩

/-- **C20**: a requested `timespec` of the schedule is valid unless the wake-up time falls exactly
on a second. -/
theorem C20_valid_off_boundary (w : Ts) (h1 : 0 ≤ w.sec ∧ 0 ≤ w.nsec ∧ w.nsec ≤ 1000000000)
    (h2 : ¬ (1000000000 : Int) ∣ w.total) : w.Valid := by
  unfold Ts.Valid Ts.total at *
  omega

/-- **C20, refuted**: a wake-up time on a full second is requested as `nsec = 10^9`, which is not a
valid `timespec` (`clock_nanosleep` rejects it and does not sleep). -/
theorem C20_fails_boundary :
    snooze false ⟨0, 500000000⟩ ⟨7, 500000000⟩ [⟨7, 600000000⟩] = some (⟨7, 1000000000⟩, []) ∧
      (⟨7, 500000000⟩ : Ts).Valid ∧ ¬ (⟨7, 1000000000⟩ : Ts).Valid := by decide

/-- **C20**: a late call resynchronises: it asks to be woken one period after the clock reading —
also with validation disabled, where the documentation promises that the schedule is kept. -/
theorem C20_fails_disabled_validation (p tv now : Ts) (h : later now (bump p tv) = true) :
    snooze false p tv [now] = some (bump p now, []) := by
  simp [snooze, addPeriod, validate, h]

example : later ⟨9, 0⟩ (bump ⟨0, 500000000⟩ ⟨7, 0⟩) = true ∧
    (bump ⟨0, 500000000⟩ ⟨9, 0⟩) ≠ (bump ⟨0, 500000000⟩ ⟨7, 0⟩) := by decide
example : snoozes true ⟨0, 400000000⟩ ⟨1, 900000000⟩
    [[⟨2, 100000000⟩, ⟨2, 100000001⟩], [⟨2, 500000000⟩, ⟨2, 600000000⟩]]
      = some [⟨2, 300000000⟩, ⟨2, 700000000⟩] := by decide

/-! ## C21 -/

/-- **C21**: after a restart, for every sequence of clock readings at which `split()` is called, the
splits add up to what `elapsed()` returns at the last of these readings. -/
theorem C21_splits_add_up (m : Mode) (t₀ : Ts) (ts : List Ts) (last : Ts)
    (h0 : t₀.Valid ∧ t₀.sec ≤ longMax) (hts : ∀ t ∈ ts, t.Valid ∧ t.sec ≤ longMax)
    (hlast : ts.getLast? = some last) :
    ∃ w rs e, watchSplits m (watchRestart t₀) ts = .ok (w, rs) ∧ watchElapsed m w last = .ok e ∧
      (rs.map Ts.total).sum = e.total := by
  obtain ⟨rs, h1, h2⟩ := watchSplits_eq m t₀ ts t₀ h0.1 h0.2 hts
  obtain ⟨lv, ll⟩ := hts last (List.mem_of_getLast? hlast)
  obtain ⟨e, e1, _, e2⟩ := sub_clock m lv h0.1 ll h0.2
  refine ⟨_, rs, e, h1, e1, ?_⟩
  rw [h2, diffs_sum, e2, List.getLast?_map, hlast]
  rfl

/-- **C21**: restart resets both: right after it, at the same reading, elapsed time and split are
zero. -/
theorem C21_restart (m : Mode) (t : Ts) (h : t.Valid ∧ t.sec ≤ longMax) :
    watchElapsed m (watchRestart t) t = .ok ⟨0, 0⟩ ∧
      watchSplit m (watchRestart t) t = .ok (watchRestart t, ⟨0, 0⟩) := by
  have e : sub m t t = .ok ⟨0, 0⟩ := by
    have h0 : InLong 0 := by decide
    unfold sub
    simp only [subL, Int.sub_self, if_pos h0, Outcome.bind_ok]
    cases m <;> decide
  constructor
  · exact e
  · simp only [watchSplit, watchRestart, e, Outcome.bind_ok]

/-- **C21, refuted for a new `StopWatch`**: before the first restart the two reference times come
from two clock readings, so the splits do not add up to the elapsed time. -/
theorem C21_fails_before_restart (m : Mode) :
    (∃ w, watchSplits m (watchNew ⟨5, 0⟩ ⟨5, 1000⟩) [⟨6, 0⟩] = .ok (w, [⟨0, 999999000⟩]) ∧
      watchElapsed m w ⟨6, 0⟩ = .ok ⟨1, 0⟩) := by
  refine ⟨⟨⟨5, 0⟩, ⟨6, 0⟩⟩, ?_, ?_⟩ <;> cases m <;> decide

example : watchSplits .debug (watchRestart ⟨1, 0⟩) [⟨1, 5⟩, ⟨3, 0⟩]
    = .ok (⟨⟨1, 0⟩, ⟨3, 0⟩⟩, [⟨0, 5⟩, ⟨1, 999999995⟩]) := by decide

/-! ## C22 -/

/-- **C22**: the text of a normalised timestamp is its duration in decimal: sign, integer seconds,
point, nine zero padded digits. -/
theorem C22_text (a : Ts) (h : a.Norm) : print a = decimalText a.total := by
  obtain ⟨s, n⟩ := a
  unfold Ts.Norm at h
  simp only at h
  unfold print decimalText printInt pad9 Ts.total
  simp only
  have hlen : ∀ k : Nat, 0 < k → ((Nat.toDigits 10 n.natAbs).length ≤ k ↔ n.natAbs < 10 ^ k) :=
    fun k hk => Nat.length_toDigits_le_iff (by decide) hk
  have hpos : 0 < (Nat.toDigits 10 n.natAbs).length := Nat.length_toDigits_pos
  have e1 : (s * 1000000000 + n).natAbs % 1000000000 = n.natAbs := by omega
  have e2 : (s * 1000000000 + n).natAbs / 1000000000 = s.natAbs := by omega
  rw [e1, e2]
  have hpad : (if n.natAbs < 10 then "00000000".toList else if n.natAbs < 100 then "0000000".toList
      else if n.natAbs < 1000 then "000000".toList else if n.natAbs < 10000 then "00000".toList
      else if n.natAbs < 100000 then "0000".toList else if n.natAbs < 1000000 then "000".toList
      else if n.natAbs < 10000000 then "00".toList else if n.natAbs < 100000000 then "0".toList
      else []) = List.replicate (9 - (Nat.toDigits 10 n.natAbs).length) '0' := by
    have l1 := hlen 1 (by decide); have l2 := hlen 2 (by decide); have l3 := hlen 3 (by decide)
    have l4 := hlen 4 (by decide); have l5 := hlen 5 (by decide); have l6 := hlen 6 (by decide)
    have l7 := hlen 7 (by decide); have l8 := hlen 8 (by decide); have l9 := hlen 9 (by decide)
    norm_num at l1 l2 l3 l4 l5 l6 l7 l8 l9
    generalize (Nat.toDigits 10 n.natAbs).length = L at *
    split
    · rw [show L = 1 by omega]; rfl
    split
    · rw [show L = 2 by omega]; rfl
    split
    · rw [show L = 3 by omega]; rfl
    split
    · rw [show L = 4 by omega]; rfl
    split
    · rw [show L = 5 by omega]; rfl
    split
    · rw [show L = 6 by omega]; rfl
    split
    · rw [show L = 7 by omega]; rfl
    split
    · rw [show L = 8 by omega]; rfl
    · rw [show L = 9 by omega]; rfl
  rw [hpad]
  by_cases c1 : s < 0
  · rw [if_neg (by omega), if_pos c1, if_pos (by omega)]; simp
  · rw [if_neg c1]
    by_cases c2 : s = 0 ∧ n < 0
    · rw [if_pos c2, if_pos (by omega)]; simp
    · rw [if_neg c2, if_neg (by omega)]; simp

example : print ⟨0, -5⟩ = "-0.000000005".toList ∧ print ⟨-12, -340000000⟩ = "-12.340000000".toList := by
  decide

/-- The milli- and microseconds beside the seconds of a normalised timestamp: the duration rounded toward
zero. -/
theorem C22_units (a : Ts) (h : a.Norm) :
    a.sec * 1000 + msec a = a.total.tdiv 1000000 ∧ a.sec * 1000000 + usec a = a.total.tdiv 1000 := by
  obtain ⟨s, n⟩ := a
  unfold Ts.Norm at h
  simp only at h
  simp only [msec, usec, Ts.total]
  rcases h with ⟨h1, h2, h3⟩
  by_cases hp : 0 ≤ n ∧ 0 ≤ s
  · rw [Int.tdiv_eq_ediv_of_nonneg hp.1, Int.tdiv_eq_ediv_of_nonneg hp.1,
      Int.tdiv_eq_ediv_of_nonneg (by omega), Int.tdiv_eq_ediv_of_nonneg (by omega)]
    omega
  · have e1 : n.tdiv 1000000 = -((-n) / 1000000) := by
      rw [← Int.tdiv_eq_ediv_of_nonneg (by omega), Int.neg_tdiv, neg_neg]
    have e2 : n.tdiv 1000 = -((-n) / 1000) := by
      rw [← Int.tdiv_eq_ediv_of_nonneg (by omega), Int.neg_tdiv, neg_neg]
    have e3 : (s * 1000000000 + n).tdiv 1000000 = -((-(s * 1000000000 + n)) / 1000000) := by
      rw [← Int.tdiv_eq_ediv_of_nonneg (by omega), Int.neg_tdiv, neg_neg]
    have e4 : (s * 1000000000 + n).tdiv 1000 = -((-(s * 1000000000 + n)) / 1000) := by
      rw [← Int.tdiv_eq_ediv_of_nonneg (by omega), Int.neg_tdiv, neg_neg]
    rw [e1, e2, e3, e4]
    omega

example : (⟨-3, -250999999⟩ : Ts).Norm ∧ msec ⟨-3, -250999999⟩ = -250 := by
  refine ⟨?_, by decide⟩; unfold Ts.Norm; decide

end Ecl.Props
