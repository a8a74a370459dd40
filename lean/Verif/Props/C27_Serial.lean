import Verif.Model.Serial
import Verif.Spec.Time

/-!
# C27: serial timeouts
-/
set_option autoImplicit false
set_option linter.unusedSimpArgs false

namespace Ecl.Props
open Ecl Ecl.Time Ecl.Serial

variable {α : Type _}

/-! ## Helper facts -/

private theorem toLong_small (t : Nat) (h : t < 1000000000000) : toLong t = t := by
  unfold toLong
  have : t % 18446744073709551616 = t := Nat.mod_eq_of_lt (by omega)
  simp only [this]
  rw [if_pos (by omega)]

private theorem bump_total (p tv : Ts) : (bump p tv).total = tv.total + p.total := by
  unfold bump Ts.total
  split <;> simp only <;> omega

private theorem bump_range (p tv : Ts) (hp : 0 ≤ p.nsec ∧ p.nsec < 1000000000)
    (h : 0 ≤ tv.nsec ∧ tv.nsec ≤ 1000000000) : 0 ≤ (bump p tv).nsec ∧ (bump p tv).nsec ≤ 1000000000 := by
  unfold bump
  split <;> simp only <;> omega

private theorem later_total (now tv : Ts) (h1 : 0 ≤ now.nsec) (h2 : tv.nsec ≤ 1000000000)
    (h : later now tv = true) : tv.total ≤ now.total := by
  simp only [later, Bool.or_eq_true, Bool.and_eq_true, decide_eq_true_eq] at h
  unfold Ts.total
  omega

/-- A snooze asks for a wake-up at least one period after the previous one, whatever the clock says. -/
private theorem snooze_next (p tv now : Ts) (hp : 0 ≤ p.nsec ∧ p.nsec < 1000000000) (hps : 0 ≤ p.total)
    (h : 0 ≤ tv.nsec ∧ tv.nsec ≤ 1000000000) (hn : 0 ≤ now.nsec ∧ now.nsec < 1000000000) :
    ∃ req, snooze false p tv [now] = some (req, []) ∧ tv.total + p.total ≤ req.total ∧
      0 ≤ req.nsec ∧ req.nsec ≤ 1000000000 := by
  simp only [snooze, addPeriod, validate, Bool.false_eq_true, if_false, Option.bind_some]
  by_cases hl : later now (bump p tv) = true
  · rw [if_pos hl]
    refine ⟨_, rfl, ?_, bump_range p now hp ⟨hn.1, by omega⟩⟩
    have := later_total now (bump p tv) hn.1 (bump_range p tv hp h).2 hl
    rw [bump_total] at this ⊢
    omega
  · rw [if_neg hl]
    exact ⟨_, rfl, by rw [bump_total]; omega, bump_range p tv hp h⟩

private theorem sysRead_line (v : Nat) (line : Line α) (n : Nat) (τ : Int) :
    ∃ got, line = got ++ (sysRead v line n τ).2.1 ∧ got.map Prod.snd = (sysRead v line n τ).1 ∧
      got.length ≤ n ∧ ∀ p ∈ got, p.1 ≤ (sysRead v line n τ).2.2 := by
  have key : ∀ (l : Line α) (t : Int), ∃ got, l = got ++ l.drop ((arrived l t).take n).length ∧
      got.map Prod.snd = ((arrived l t).take n).map Prod.snd ∧ got.length ≤ n ∧ ∀ p ∈ got, p.1 ≤ t := by
    intro l t
    refine ⟨(arrived l t).take n, ?_, rfl, by simp; omega, ?_⟩
    · have hpre : (arrived l t).take n <+: l :=
        (List.take_prefix _ _).trans (List.takeWhile_prefix _)
      generalize (arrived l t).take n = g at hpre
      obtain ⟨q, rfl⟩ := hpre
      simp
    · intro p hp
      have := List.mem_of_mem_take hp
      clear hp
      unfold arrived at this
      induction l with
      | nil => simp at this
      | cons x xs ih =>
        rw [List.takeWhile_cons] at this
        split at this
        · rcases List.mem_cons.1 this with h | h
          · subst h; rename_i hx; simpa using hx
          · exact ih h
        · simp at this
  unfold sysRead
  split
  · exact ⟨[], by simp⟩
  · split
    · exact key _ _
    · split
      · exact key _ _
      · exact ⟨[], by simp⟩

/-- A poll that returns nothing means that nothing has arrived. -/
private theorem sysRead_nil (v : Nat) (line : Line α) (n : Nat) (hn : 0 < n) (τ : Int)
    (h : (sysRead v line n τ).1 = []) : (sysRead v line n τ).2.1 = line ∧
      (sysRead v line n τ).2.2 = τ + v * 100000000 ∧ ∀ p, line.head? = some p → τ + v * 100000000 < p.1 := by
  unfold sysRead at h ⊢
  split at h
  · simp
  · rename_i a b rest
    split at h
    · rename_i ha
      obtain ⟨k, rfl⟩ : ∃ k, n = k + 1 := ⟨n - 1, by omega⟩
      simp [arrived, ha] at h
    · rename_i ha
      split at h
      · obtain ⟨k, rfl⟩ : ∃ k, n = k + 1 := ⟨n - 1, by omega⟩
        simp [arrived] at h
      · rename_i hb
        refine ⟨by simp [ha, hb], by simp [ha, hb], ?_⟩
        intro p hp
        simp at hp; subst hp; simpa using hb

/-- The fake timeout loop, from a wake-up time `tv` not after the present. -/
private theorem fake_nil (p : Ts) (hp : 0 ≤ p.nsec ∧ p.nsec < 1000000000) (hps : 0 ≤ p.total) (n : Nat)
    (hn : 0 < n) : ∀ (ticks : List Tick) (line : Line α) (tv : Ts) (τ : Int),
    (∀ t ∈ ticks, 0 ≤ t.1.nsec ∧ t.1.nsec < 1000000000) → 0 ≤ tv.nsec ∧ tv.nsec ≤ 1000000000 →
    tv.total ≤ τ → (fakeLoop p n line tv τ ticks).1 = [] →
    (∀ r ∈ (fakeLoop p n line tv τ ticks).2.2.2, r.nsec < 1000000000) →
    tv.total + ticks.length * p.total ≤ (fakeLoop p n line tv τ ticks).2.2.1 ∧
      (ticks ≠ [] → ∀ q, line.head? = some q → tv.total + (ticks.length - 1 : Nat) * p.total < q.1) := by
  intro ticks
  induction ticks with
  | nil => intro line tv τ _ _ h3 _ _; simpa [fakeLoop] using h3
  | cons tk ticks ih =>
    intro line tv τ h1 h2 h3 h4 h5
    obtain ⟨now, late⟩ := tk
    have hnow := h1 (now, late) (by simp)
    obtain ⟨req, e1, e2, e3⟩ := snooze_next p tv now hp hps h2 hnow
    have hs : (sysRead 0 line n τ).1 = [] := by
      cases hsr : sysRead 0 line n τ with
      | mk bs r =>
        obtain ⟨l', τ'⟩ := r
        cases bs with
        | nil => rfl
        | cons b bs => simp [fakeLoop, hsr] at h4
    obtain ⟨s1, s2, s3⟩ := sysRead_nil 0 line n hn τ hs
    have hsr : sysRead 0 line n τ = ([], line, τ) := by
      refine Prod.ext hs (Prod.ext s1 ?_)
      simp only [s2]; omega
    have hstep : fakeLoop p n line tv τ ((now, late) :: ticks) =
        ((fakeLoop p n line req (sleepUntil req τ late) ticks).1,
         (fakeLoop p n line req (sleepUntil req τ late) ticks).2.1,
         (fakeLoop p n line req (sleepUntil req τ late) ticks).2.2.1,
         req :: (fakeLoop p n line req (sleepUntil req τ late) ticks).2.2.2) := by
      simp [fakeLoop, hsr, e1]
    rw [hstep] at h4 h5 ⊢
    simp only at h4 h5 ⊢
    have hreq : req.nsec < 1000000000 := h5 req (by simp)
    have hwake : req.total ≤ sleepUntil req τ late := by
      unfold sleepUntil Ts.total
      rw [if_pos ⟨e3.1, hreq⟩]
      omega
    obtain ⟨i1, i2⟩ := ih line req (sleepUntil req τ late) (fun t ht => h1 t (by simp [ht])) e3 hwake h4
      (fun r hr => h5 r (by simp [hr]))
    refine ⟨?_, ?_⟩
    · simp only [List.length_cons, Int.natCast_add, Int.cast_ofNat_Int]
      rw [Int.add_mul]; omega
    · intro _ q hq
      cases ticks with
      | nil =>
        have := s3 q hq
        simp only [List.length_cons, List.length_nil, Nat.zero_add, Nat.sub_self, Int.natCast_zero] at this ⊢
        omega
      | cons t ts =>
        have := i2 (by simp) q hq
        simp only [List.length_cons, Nat.add_sub_cancel] at this ⊢
        simp only [Int.natCast_add, Int.cast_ofNat_Int] at this ⊢
        rw [Int.add_mul]; omega

/-- Milliseconds in nanoseconds. -/
def ms (t : Nat) : Int := t * 1000000

/-! ## The property -/

/-- **C27, partial (below 100 ms)**: with `block(t)`, `0 < t < 100`, a read that gives up does so no
earlier than `t` ms after it was called, and then no byte had arrived up to one polling step (at most 5 ms)
before that.  This is for every arrival pattern, every clock reading and every delay of the wake-ups;
missing are the cases in which a wake-up is asked for at a full second (`C27_fails_full_second`),
`t = 0` (`C27_fails_zero`) and bytes arriving during the last step (`C27_fails_last_step`). -/
theorem C27_waits_partial (m : Mode) (s : Port) (hs : s.isOpen = true) (t : Nat) (h0 : 0 < t)
    (h1 : t < 100) (line : Line α) (n : Nat) (hn : 0 < n) (τ : Int) (start : Ts) (hst : start.total = τ)
    (hv : 0 ≤ start.nsec ∧ start.nsec < 1000000000) (ticks : Nat → Tick)
    (ht : ∀ k, 0 ≤ (ticks k).1.nsec ∧ (ticks k).1.nsec < 1000000000)
    (line' : Line α) (e : Int) (reqs : List Ts)
    (h : readN m (s.block t) line n τ start ticks = .ok (some ([], line', e, reqs)))
    (hr : ∀ r ∈ reqs, r.nsec ≠ 1000000000) :
    τ + ms t ≤ e ∧ ∀ q, line.head? = some q → τ + ms t - ms 5 < q.1 := by
  have hopen : (s.block t).isOpen = true := by
    unfold Port.block; simp only [h1, if_true]; split
    · exact hs
    · split <;> exact hs
  have hto : (s.block t).timeoutMs = t := by
    exact toLong_small _ (by omega)
  have hvt : (t : Int) ≠ -1 ∧ (t : Int) < 100 := by omega
  have hper : ∃ u k : Nat, (s.block t).period = ⟨0, u * 1000000⟩ ∧ (s.block t).count = k ∧ 0 < k ∧
      t ≤ k * u ∧ u ≤ 5 ∧ 1 ≤ u := by
    unfold Port.block
    simp only [h1, if_true]
    by_cases a : t < 5
    · exact ⟨1, t, by simp [a, Port.unblock], by simp [a, Port.unblock], by omega⟩
    · by_cases b : t < 20
      · refine ⟨2, _, by simp [a, b, Port.unblock], rfl, ?_⟩
        simp only [a, b, if_true, if_false, Port.unblock]
        split <;> omega
      · refine ⟨5, _, by simp [a, b, Port.unblock], rfl, ?_⟩
        simp only [a, b, if_false, Port.unblock]
        split <;> omega
  obtain ⟨u, k, e1, e2, e3, e4, e5, e6⟩ := hper
  simp only [readN, hopen, not_true_eq_false, if_false, hto, hvt, ne_eq, not_false_eq_true, and_self,
    if_true, Outcome.ok.injEq, Option.some.injEq, e1, e2] at h
  have hp : 0 ≤ (⟨0, u * 1000000⟩ : Ts).nsec ∧ (⟨0, u * 1000000⟩ : Ts).nsec < 1000000000 := by
    simp only; omega
  have hpt : (⟨0, u * 1000000⟩ : Ts).total = u * 1000000 := by simp [Ts.total]
  have hreq : ∀ (ticks : List Tick) (line : Line α) (tv : Ts) (τ : Int),
      0 ≤ tv.nsec ∧ tv.nsec ≤ 1000000000 → (∀ t ∈ ticks, 0 ≤ t.1.nsec ∧ t.1.nsec < 1000000000) →
      ∀ r ∈ (fakeLoop ⟨0, u * 1000000⟩ n line tv τ ticks).2.2.2, r.nsec ≤ 1000000000 := by
    intro ticks
    induction ticks with
    | nil => intro line tv τ _ _ r hr; simp [fakeLoop] at hr
    | cons tk ticks ih =>
      intro line tv τ h2 h1 r hr
      obtain ⟨now, late⟩ := tk
      obtain ⟨req, q1, q2, q3⟩ := snooze_next ⟨0, u * 1000000⟩ tv now hp (by rw [hpt]; omega) h2
        (h1 (now, late) (by simp))
      cases hsr : sysRead 0 line n τ with
      | mk bs rr =>
        obtain ⟨l', τ'⟩ := rr
        cases bs with
        | cons b bs => simp [fakeLoop, hsr] at hr
        | nil =>
          simp only [fakeLoop, hsr, q1, List.mem_cons] at hr
          rcases hr with rfl | hr
          · exact q3.2
          · exact ih _ _ _ q3 (fun t ht => h1 t (by simp [ht])) r hr
  have hticks : ∀ x ∈ (List.range k).map ticks, 0 ≤ x.1.nsec ∧ x.1.nsec < 1000000000 := by
    intro x hx
    obtain ⟨j, _, rfl⟩ := List.mem_map.1 hx
    exact ht j
  have hmain := fake_nil ⟨0, u * 1000000⟩ hp (by rw [hpt]; omega) n hn ((List.range k).map ticks) line start τ
    hticks ⟨hv.1, by omega⟩ (by omega) (by rw [h]) (by
      rw [h]; intro r hr'
      have := hreq _ line start τ ⟨hv.1, by omega⟩ hticks r (by rw [h]; exact hr')
      have := hr r hr'
      omega)
  rw [h] at hmain
  simp only [List.length_map, List.length_range, hpt, hst] at hmain
  have hku : (t : Int) ≤ k * u := by exact_mod_cast e4
  obtain ⟨m1, m2⟩ := hmain
  have hmul : (k : Int) * (u * 1000000) = k * u * 1000000 := by rw [Int.mul_assoc]
  unfold ms
  refine ⟨by omega, ?_⟩
  intro q hq
  have := m2 (by intro hc; have := congrArg List.length hc; simp at this; omega) q hq
  have hk1 : ((k - 1 : Nat) : Int) * (u * 1000000) = k * u * 1000000 - u * 1000000 := by
    have : ((k - 1 : Nat) : Int) = k - 1 := by omega
    rw [this, Int.sub_mul, hmul]; omega
  omega

/-- A port that has just been opened, and clock readings of a machine that is never late. -/
def port0 : Port := ⟨true, 50, 5000, ⟨0, 10000000⟩, 0⟩

-- non-vacuity: `block(7)`, nothing arrives, perfect clock from 1.5 s
example : readN .release (port0.block 7) ([] : Line Char) 3 1500000000 ⟨1, 500000000⟩
    (fun k => (⟨1, 500000000 + k * 2000000⟩, 0)) =
    .ok (some ([], [], 1508000000,
      [⟨1, 502000000⟩, ⟨1, 504000000⟩, ⟨1, 506000000⟩, ⟨1, 508000000⟩])) := by rfl

/-- **C27, partial (100 ms and more)**: with `block(t)`, `100 ≤ t < 25600`, a read that gives up does so
exactly at the timeout rounded down to tenths of a second, and no byte arrived until then.  Missing: longer
timeouts (`C27_fails_long`). -/
theorem C27_hardware_partial (m : Mode) (s : Port) (hs : s.isOpen = true) (t : Nat) (h0 : 100 ≤ t)
    (h1 : t < 25600) (line : Line α) (n : Nat) (hn : 0 < n) (τ : Int) (start : Ts) (ticks : Nat → Tick)
    (line' : Line α) (e : Int) (reqs : List Ts)
    (h : readN m (s.block t) line n τ start ticks = .ok (some ([], line', e, reqs))) :
    e = τ + ms (t / 100 * 100) ∧ line' = line ∧ ∀ q, line.head? = some q → e < q.1 := by
  have hto : (s.block t).timeoutMs = t := by
    exact toLong_small _ (by omega)
  have hopen : (s.block t).isOpen = true := by
    unfold Port.block; rw [if_neg (by omega)]; exact hs
  have hvt : (s.block t).vtime = t / 100 := by
    unfold Port.block; rw [if_neg (by omega)]; simp only; omega
  have hnot : ¬ ((s.block t).timeoutMs ≠ -1 ∧ (s.block t).timeoutMs < 100) := by rw [hto]; omega
  unfold readN at h
  rw [if_neg (by simp [hopen]), if_neg hnot] at h
  simp only [hvt, Outcome.ok.injEq, Option.some.injEq, Prod.mk.injEq] at h
  obtain ⟨q1, q2, q3⟩ := sysRead_nil (t / 100) line n hn τ h.1
  have he : e = τ + ms (t / 100 * 100) := by
    rw [← h.2.2.1, q2]; unfold ms; omega
  refine ⟨he, by rw [← h.2.1, q1], ?_⟩
  intro q hq
  have := q3 q hq
  rw [he]; unfold ms; omega

example : readN .debug (port0.block 250) ([(400000000, 'x')] : Line Char) 1 0 ⟨0, 0⟩ (fun _ => (⟨0, 0⟩, 0)) =
    .ok (some ([], [(400000000, 'x')], 200000000, [])) := by rfl
example : readN .debug (port0.block 250) ([(150000000, 'x')] : Line Char) 1 0 ⟨0, 0⟩ (fun _ => (⟨0, 0⟩, 0)) =
    .ok (some (['x'], [], 150000000, [])) := by rfl

/-- **C27**: whatever the timeout, a read returns the next bytes of the line in order, at most as many as
asked for, none before it arrived, and loses none. -/
theorem C27_delivers_in_order (m : Mode) (s : Port) (line : Line α) (n : Nat) (τ : Int) (start : Ts)
    (ticks : Nat → Tick) (bs : List α) (line' : Line α) (e : Int) (reqs : List Ts)
    (h : readN m s line n τ start ticks = .ok (some (bs, line', e, reqs))) :
    ∃ got, line = got ++ line' ∧ got.map Prod.snd = bs ∧ bs.length ≤ n ∧ ∀ p ∈ got, p.1 ≤ e := by
  have loop : ∀ (p : Ts) (ticks : List Tick) (line : Line α) (tv : Ts) (τ : Int),
      ∃ got, line = got ++ (fakeLoop p n line tv τ ticks).2.1 ∧
        got.map Prod.snd = (fakeLoop p n line tv τ ticks).1 ∧ got.length ≤ n ∧
        ∀ q ∈ got, q.1 ≤ (fakeLoop p n line tv τ ticks).2.2.1 := by
    intro p ticks
    induction ticks with
    | nil => intro line tv τ; exact ⟨[], by simp [fakeLoop]⟩
    | cons tk ticks ih =>
      intro line tv τ
      obtain ⟨now, late⟩ := tk
      obtain ⟨got, g1, g2, g3, g4⟩ := sysRead_line 0 line n τ
      cases hsr : sysRead 0 line n τ with
      | mk bs rr =>
        obtain ⟨l', τ'⟩ := rr
        rw [hsr] at g1 g2 g4
        cases bs with
        | cons b bs => exact ⟨got, by simp only [fakeLoop, hsr]; exact ⟨g1, g2, g3, g4⟩⟩
        | nil =>
          have hg : got = [] := by simpa using g2
          subst hg
          simp only [List.nil_append] at g1
          subst g1
          simp only [fakeLoop, hsr]
          cases snooze false p tv [now] with
          | none => exact ⟨[], by simp⟩
          | some r => exact ih _ _ _
  unfold readN at h
  split at h
  · cases m <;> simp at h
  · split at h
    · simp only [Outcome.ok.injEq, Option.some.injEq] at h
      obtain ⟨got, g1, g2, g3, g4⟩ := loop s.period ((List.range s.count).map ticks) line start τ
      rw [h] at g1 g2 g4
      simp only at g2
      exact ⟨got, g1, g2, by rw [← g2]; simpa using g3, g4⟩
    · simp only [Outcome.ok.injEq, Option.some.injEq, Prod.mk.injEq] at h
      obtain ⟨got, g1, g2, g3, g4⟩ := sysRead_line s.vtime line n τ
      rw [h.2.1] at g1; rw [h.1] at g2; rw [h.2.2.1] at g4
      exact ⟨got, g1, g2, by rw [← g2]; simpa using g3, g4⟩

example : readN .debug (port0.block 7) ([(1, 'a'), (2, 'b'), (3, 'c')] : Line Char) 2 1500000000
    ⟨1, 500000000⟩ (fun _ => (⟨1, 500000000⟩, 0)) =
    .ok (some (['a', 'b'], [(3, 'c')], 1500000000, [])) := by rfl

/-- **C27, refuted**: the hardware timeout is stored in one byte: a timeout of 25.6 s — and every
timeout whose number of tenths is a multiple of 256 — gives up immediately. -/
theorem C27_fails_long (m : Mode) (s : Port) (hs : s.isOpen = true) (k : Nat) (h0 : 0 < k)
    (h1 : k < 1000000) (n : Nat) (τ : Int) (start : Ts) (ticks : Nat → Tick) :
    readN m (s.block (25600 * k)) ([] : Line α) n τ start ticks = .ok (some ([], [], τ, [])) := by
  have hto : (s.block (25600 * k)).timeoutMs = ((25600 * k : Nat) : Int) := by
    exact toLong_small _ (by omega)
  have hopen : (s.block (25600 * k)).isOpen = true := by
    unfold Port.block; rw [if_neg (by omega)]; exact hs
  have hvt : (s.block (25600 * k)).vtime = 0 := by
    unfold Port.block; rw [if_neg (by omega)]; simp only; omega
  unfold readN
  rw [if_neg (by simp [hopen]), if_neg (by rw [hto]; omega)]
  simp [hvt, sysRead]

/-- **C27, refuted**: with `block(0)` a read of several bytes never looks at the line, even if bytes are
waiting, and a read of a single byte returns an uninitialised value. -/
theorem C27_fails_zero (m : Mode) (s : Port) (hs : s.isOpen = true) (line : Line α) (n : Nat) (τ : Int)
    (start : Ts) (ticks : Nat → Tick) :
    readN m (s.block 0) line n τ start ticks = .ok (some ([], line, τ, [])) ∧
      readByte m (s.block 0) line τ start ticks = .ub := by
  constructor <;> simp [readN, readByte, Port.block, Port.unblock, toLong, hs, fakeLoop]

/-- **C27, refuted**: a byte that arrives during the last polling step, before the timeout, is not
returned: `block(7)` at 0 s (a perfect clock), byte at 6.5 ms, read gives up at 8 ms. -/
theorem C27_fails_last_step (m : Mode) :
    readN m (port0.block 7) ([(6500000, 'x')] : Line Char) 1 0 ⟨0, 0⟩ (fun k => (⟨0, k * 2000000⟩, 0)) =
      .ok (some ([], [(6500000, 'x')], 8000000,
        [⟨0, 2000000⟩, ⟨0, 4000000⟩, ⟨0, 6000000⟩, ⟨0, 8000000⟩])) := by
  cases m <;> rfl

/-- **C27, refuted**: when the last wake-up falls on a full second it is asked for with an invalid
`timespec` and not slept: `block(5)` called at 0.994 s on a perfect clock gives up after 4 ms. -/
theorem C27_fails_full_second (m : Mode) :
    readN m (port0.block 5) ([] : Line Char) 1 994000000 ⟨0, 994000000⟩
      (fun k => (⟨0, 994000000 + k * 2000000⟩, 0)) =
      .ok (some ([], [], 998000000, [⟨0, 996000000⟩, ⟨0, 998000000⟩, ⟨0, 1000000000⟩])) := by
  cases m <;> rfl

/-- **C27, refuted**: a timeout of `2^63` ms or more becomes negative as a `long`, and the read then polls
as often as the *previous* short timeout asked for (here never). -/
theorem C27_fails_huge (m : Mode) (line : Line Char) (τ : Int) (start : Ts) (ticks : Nat → Tick) :
    readByte m (port0.block 9223372036854775808) line τ start ticks = .ub := by
  simp [readByte, Port.block, toLong, port0]

/-- **C27**: a closed port is reported: an exception in debug mode, the return value -1 in release. -/
theorem C27_closed (s : Port) (hs : s.isOpen = false) (line : Line α) (n : Nat) (τ : Int) (start : Ts)
    (ticks : Nat → Tick) :
    readN .debug s line n τ start ticks = .throw .openError ∧
      readN .release s line n τ start ticks = .ok none := by
  constructor <;> simp [readN, hs]

/-- **C27**: an unblocked port does not wait: a read returns at once, with what has arrived by then. -/
theorem C27_unblocked (m : Mode) (s : Port) (hs : s.isOpen = true) (line : Line α) (n : Nat) (τ : Int)
    (start : Ts) (ticks : Nat → Tick) :
    ∃ line', readN m s.unblock line n τ start ticks =
      .ok (some (((line.takeWhile fun p => decide (p.1 ≤ τ)).take n).map Prod.snd, line', τ, [])) := by
  rcases line with _ | ⟨⟨a, b⟩, rest⟩
  · exact ⟨[], by simp [readN, Port.unblock, hs, sysRead]⟩
  · by_cases ha : a ≤ τ
    · exact ⟨_, by simp only [readN, Port.unblock, hs, sysRead, ha, if_true, arrived]; rfl⟩
    · exact ⟨(a, b) :: rest, by simp [readN, Port.unblock, hs, sysRead, ha, arrived]⟩

/-- **C27**: reading a single byte gives nothing or the next one on the line. -/
theorem C27_byte_partial (m : Mode) (s : Port) (line : Line α) (τ : Int) (start : Ts)
    (ticks : Nat → Tick) (bs : List α) (line' : Line α) (e : Int) (reqs : List Ts)
    (h : readByte m s line τ start ticks = .ok (some (bs, line', e, reqs))) :
    (bs = [] ∧ line' = line) ∨ ∃ t b, line = (t, b) :: line' ∧ bs = [b] ∧ t ≤ e := by
  unfold readByte at h
  split at h
  · cases h
  · obtain ⟨got, h1, h2, h3, h4⟩ := C27_delivers_in_order m s line 1 τ start ticks bs line' e reqs h
    rcases got with _ | ⟨⟨t, b⟩, _ | ⟨c, got⟩⟩
    · exact .inl ⟨by simpa using h2.symm, by simpa using h1.symm⟩
    · exact .inr ⟨t, b, by simpa using h1, by simpa using h2.symm, h4 (t, b) (by simp)⟩
    · subst h2; simp at h3

/-- Two bytes have arrived; one is read. -/
example : readByte .debug port0.unblock ([(0, 'a'), (1, 'b')] : Line Char) 5 ⟨0, 0⟩ (fun _ => (⟨0, 0⟩, 0)) =
    .ok (some (['a'], [(1, 'b')], 5, [])) := by rfl

end Ecl.Props
