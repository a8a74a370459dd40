import Verif.Model.TimeWin
import Verif.Spec.Time
import Mathlib.Tactic.Common

/-!
# C99: clocks, stop watches and sleeping on Windows
-/
set_option autoImplicit false
set_option linter.unusedSimpArgs false

namespace Ecl.Props
open Ecl Ecl.Time Ecl.TimeWin

/-- A new time stamp is the time of the clock. -/
theorem C99_now (c : Nat) : (now c).Valid ∧ (now c).total = c := by
  unfold now Ts.Valid Ts.total
  simp only
  omega

private theorem sub_self (m : Mode) (t : Ts) : sub m t t = .ok ⟨0, 0⟩ := by
  have h : InLong 0 := by decide
  cases m <;> simp [Time.sub, subL, h, borrow, mk, assertThrow] <;> rfl

/-- `stamp` does not look at the clock: after any sequence of calls the watch still counts from its
construction, restarts or not, and whatever the clock counted. -/
private theorem start_run (m : Mode) : ∀ (ops : List WatchOp) (w w' : Watch) (rs : List (Option Ts)),
    watchRun m w ops = .ok (w', rs) → w'.start = w.start
  | [], w, w', rs, h => by cases h; rfl
  | op :: ops, w, w', rs, h => by
    rw [watchRun] at h
    cases hs : watchStep m w op with
    | ok r =>
      rw [hs, Outcome.bind_ok] at h
      cases hr : watchRun m r.1 ops with
      | ok q =>
        rw [hr, Outcome.bind_ok] at h
        have ih := start_run m ops r.1 q.1 q.2 hr
        cases h
        rw [ih]
        cases op with
        | restart c =>
          simp only [watchStep, stamp] at hs
          cases hs
          rfl
        | split c =>
          simp only [watchStep, stamp, sub_self, Outcome.bind_ok] at hs
          cases hs
          rfl
        | elapsed c =>
          simp only [watchStep] at hs
          cases hd : Time.sub m (now c) w.start with
          | ok d => rw [hd, Outcome.bind_ok] at hs; cases hs; rfl
          | throw e => rw [hd] at hs; cases hs
          | ub => rw [hd] at hs; cases hs
      | throw e => rw [hr] at h; cases h
      | ub => rw [hr] at h; cases h
    | throw e => rw [hs] at h; cases h
    | ub => rw [hs] at h; cases h

private theorem sub_now (m : Mode) (a b : Nat) (h : a ≤ b) (hb : b < 2147483648 * 1000000000) :
    ∃ r, Time.sub m (now b) (now a) = .ok r ∧ r.Norm ∧ r.total = b - a := by
  have h1 : InLong ((b / 1000000000 : Nat) - (a / 1000000000 : Nat) : Int) := by
    unfold InLong longMin longMax
    omega
  have h2 : InLong ((b % 1000000000 : Nat) - (a % 1000000000 : Nat) : Int) := by
    unfold InLong longMin longMax
    omega
  refine ⟨⟨(borrow ((b / 1000000000 : Nat) - (a / 1000000000 : Nat)) ((b % 1000000000 : Nat) - (a % 1000000000 : Nat))).1,
    (borrow ((b / 1000000000 : Nat) - (a / 1000000000 : Nat)) ((b % 1000000000 : Nat) - (a % 1000000000 : Nat))).2⟩, ?_, ?_, ?_⟩
  · have e1 : subL (now b).sec (now a).sec = .ok ((b / 1000000000 : Nat) - (a / 1000000000 : Nat) : Int) := if_pos h1
    have e2 : subL (now b).nsec (now a).nsec = .ok ((b % 1000000000 : Nat) - (a % 1000000000 : Nat) : Int) := if_pos h2
    rw [Time.sub, e1, Outcome.bind_ok, e2, Outcome.bind_ok]
    dsimp only [mk]
    cases m
    · unfold assertThrow
      simp only
      rw [if_pos]
      · rfl
      · unfold borrow
        simp only [Bool.or_eq_true, Bool.and_eq_true, decide_eq_true_eq]
        split_ifs <;> simp only <;> omega
    · rfl
  · unfold Ts.Norm borrow
    split_ifs <;> simp only <;> omega
  · unfold Ts.total borrow
    split_ifs <;> simp only <;> omega

/-- A watch that is never restarted tells the time since its construction. -/
theorem C99_elapsed_partial (m : Mode) (c₁ c₂ c : Nat) (h : c₁ ≤ c) (hc : c < 2147483648 * 1000000000) :
    ∃ r, watchStep m (watchNew c₁ c₂) (.elapsed c) = .ok (watchNew c₁ c₂, some r) ∧ r.total = c - c₁ := by
  obtain ⟨r, h1, -, h2⟩ := sub_now m c₁ c h hc
  refine ⟨r, ?_, h2⟩
  simp only [watchStep, TimeWin.watchNew, h1, Outcome.bind_ok]

example : watchStep .debug (watchNew 5 6) (.elapsed 2000000007) = .ok (watchNew 5 6, some ⟨2, 2⟩) := by decide

/-- A restart is without effect: whatever was called before, `elapsed` tells the time since the construction. -/
theorem C99_fails_restart (m : Mode) (c₁ c₂ : Nat) (ops : List WatchOp) (w : Watch) (rs : List (Option Ts))
    (hw : watchRun m (watchNew c₁ c₂) ops = .ok (w, rs)) (c₀ c : Nat) (h : c₁ ≤ c) (hc : c < 2147483648 * 1000000000) :
    ∃ w' r, watchRun m w [.restart c₀, .elapsed c] = .ok (w', [none, some r]) ∧ r.total = c - c₁ := by
  have hst : w.start = now c₁ := by
    have := start_run m ops _ _ _ hw
    rw [this]
    rfl
  obtain ⟨r, h1, -, h2⟩ := sub_now m c₁ c h hc
  refine ⟨⟨now c₁, now c₁⟩, r, ?_, h2⟩
  simp only [watchRun, watchStep, stamp, hst, h1, Outcome.bind_ok]

/-- `split` always returns 0, whatever the time since the last one. -/
theorem C99_fails_split (m : Mode) (w : Watch) (c : Nat) :
    watchStep m w (.split c) = .ok (w, some ⟨0, 0⟩) := by
  simp only [watchStep, stamp, sub_self, Outcome.bind_ok]

private theorem toLong_small {n : Nat} (h : n < 2147483648) : TimeWin.toLong n = n := by
  have h1 : n % 4294967296 = n := Nat.mod_eq_of_lt (by omega)
  simp only [TimeWin.toLong, h1, if_pos h]

/-- The constructors of the sleepers take any 32 bit number for what it means. -/
theorem C99_sleep_constructor (k : SleepKind) (n : Nat) (hn : n < 4294967296) :
    (TimeWin.sleepCtor k n).Valid ∧ (TimeWin.sleepCtor k n).total = n * unit k := by
  unfold Ts.Valid Ts.total
  cases k <;> simp only [TimeWin.sleepCtor, unit]
  · omega
  all_goals
    rw [toLong_small (by omega)]
    omega

/-- Sequences of calls ask for the durations that are wanted: any for seconds and milliseconds; below a second for
microseconds and nanoseconds. -/
theorem C99_sleep_calls_partial (k : SleepKind) (n₀ : Nat) (ops : List SleepOp) (h₀ : n₀ < 4294967296)
    (h : ∀ n, SleepOp.call n ∈ ops → n < 4294967296)
    (hk : k = .micro ∨ k = .nano → n₀ * unit k < 1000000000 ∧ ∀ n, SleepOp.call n ∈ ops → n * unit k < 1000000000) :
    (TimeWin.sleepRuns k (TimeWin.sleepCtor k n₀) ops).map Ts.total = (wanted k (n₀ * unit k) ops).map Int.ofNat ∧
      ∀ r ∈ TimeWin.sleepRuns k (TimeWin.sleepCtor k n₀) ops, r.Valid := by
  have gen : ∀ (ops : List SleepOp) (req : Ts) (last : Nat), req.Valid → req.total = last →
      (k = .micro ∨ k = .nano → req.sec = 0) →
      (∀ n, SleepOp.call n ∈ ops → n < 4294967296 ∧ (k = .micro ∨ k = .nano → n * unit k < 1000000000)) →
      (TimeWin.sleepRuns k req ops).map Ts.total = (wanted k last ops).map Int.ofNat ∧
        ∀ r ∈ TimeWin.sleepRuns k req ops, r.Valid := by
    intro ops
    induction ops with
    | nil => intro req last _ _ _ _; simp [TimeWin.sleepRuns, wanted]
    | cons op ops ih =>
      intro req last hv ht hz hn
      have hn' : ∀ n, SleepOp.call n ∈ ops → n < 4294967296 ∧ (k = .micro ∨ k = .nano → n * unit k < 1000000000) :=
        fun n hm => hn n (by simp [hm])
      cases op with
      | fixed =>
        obtain ⟨i1, i2⟩ := ih req last hv ht hz hn'
        simp only [TimeWin.sleepRuns, TimeWin.sleepReq, wanted, List.map_cons, i1, ht]
        refine ⟨by simp, ?_⟩
        intro r hr
        rcases List.mem_cons.1 hr with rfl | hr
        · exact hv
        · exact i2 r hr
      | call n =>
        obtain ⟨hb, hu⟩ := hn n (by simp)
        have hc : (TimeWin.sleepReq k req (.call n)).Valid ∧
            (TimeWin.sleepReq k req (.call n)).total = ((n * unit k : Nat) : Int) ∧
            (k = .micro ∨ k = .nano → (TimeWin.sleepReq k req (.call n)).sec = 0) := by
          cases k with
          | sec =>
            obtain ⟨a, b⟩ := C99_sleep_constructor .sec n hb
            exact ⟨a, by rw [Int.natCast_mul]; exact b, by simp⟩
          | milli =>
            obtain ⟨a, b⟩ := C99_sleep_constructor .milli n hb
            exact ⟨a, by rw [Int.natCast_mul]; exact b, by simp⟩
          | micro =>
            have h1 := hz (by simp)
            have h2 := hu (by simp)
            simp only [unit] at h2 ⊢
            simp only [TimeWin.sleepReq, Ts.Valid, Ts.total, h1]
            rw [toLong_small (by omega)]
            refine ⟨by omega, by omega, fun _ => trivial⟩
          | nano =>
            have h1 := hz (by simp)
            have h2 := hu (by simp)
            simp only [unit] at h2 ⊢
            simp only [TimeWin.sleepReq, Ts.Valid, Ts.total, h1]
            rw [toLong_small (by omega)]
            refine ⟨by omega, by omega, fun _ => trivial⟩
        obtain ⟨c1, c2, c3⟩ := hc
        obtain ⟨i1, i2⟩ := ih _ (n * unit k) c1 c2 c3 hn'
        simp only [TimeWin.sleepRuns, wanted, List.map_cons, i1, c2]
        refine ⟨by simp, ?_⟩
        intro r hr
        rcases List.mem_cons.1 hr with rfl | hr
        · exact c1
        · exact i2 r hr
  obtain ⟨v, t⟩ := C99_sleep_constructor k n₀ h₀
  refine gen ops _ _ v (by rw [t]; simp) ?_ (fun n hm => ⟨h n hm, fun hh => (hk hh).2 n hm⟩)
  intro hh
  have h1 := (hk hh).1
  have h2 : ((n₀ : Int) * (unit k : Int)) < 1000000000 := by rw [← Int.natCast_mul]; exact Int.ofNat_lt.2 h1
  unfold Ts.Valid at v
  unfold Ts.total at t
  omega

example : TimeWin.sleepRuns .micro (TimeWin.sleepCtor .micro 250) [.fixed, .call 20000] = [⟨0, 250000⟩, ⟨0, 20000000⟩] := by decide

/-- A call for four seconds and a bit, in microseconds, asks for less than a microsecond, and the system takes
it. -/
theorem C99_fails_micro_wraps :
    (TimeWin.sleepReq .micro (TimeWin.sleepCtor .micro 0) (.call 4294968)).Valid ∧
      (TimeWin.sleepReq .micro (TimeWin.sleepCtor .micro 0) (.call 4294968)).total = 704 := by decide

/-- What a call in microseconds asks for, whatever its argument: a thousand times the argument modulo 2^32, as
a signed number.  The system takes it exactly when that is less than a second. -/
theorem C99_micro (n₀ n : Nat) (h₀ : n₀ < 1000000) :
    let r := TimeWin.sleepReq .micro (TimeWin.sleepCtor .micro n₀) (.call n)
    (∃ k : Int, r.total = 1000 * n - 4294967296 * k) ∧ -2147483648 ≤ r.total ∧ r.total < 2147483648 ∧
      (r.Valid ↔ 1000 * n % 4294967296 < 1000000000) := by
  have h1 : n₀ / 1000000 = 0 := by omega
  simp only [TimeWin.sleepReq, TimeWin.sleepCtor, TimeWin.toLong, h1, Ts.total, Ts.Valid]
  split
  · refine ⟨⟨(1000 * n / 4294967296 : Nat), ?_⟩, ?_, ?_, ?_⟩ <;> omega
  · refine ⟨⟨(1000 * n / 4294967296 : Nat) + 1, ?_⟩, ?_, ?_, ?_⟩ <;> omega

example : ¬ (TimeWin.sleepReq .micro (TimeWin.sleepCtor .micro 0) (.call 3000000)).Valid ∧
    (TimeWin.sleepReq .micro (TimeWin.sleepCtor .micro 0) (.call 3000000)).total = -1294967296 := by decide

end Ecl.Props
