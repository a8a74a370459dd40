import Verif.Lemmas.ClockFailure

/-!
# C127: clocks that fail and sleeps that are interrupted
-/
set_option autoImplicit false

namespace Ecl.Props
open Ecl.Time Ecl.ClockFail Ecl.Spec.ClockFail

/-- **C127, partial** (debug builds): a stop watch started at two readings answers every history of calls, whichever of
them find the clock failing: those report the reason and leave the watch as it was, the others answer as if they had not
been made.  Missing: release builds, see below. -/
theorem C127_stopwatch_partial (t₁ t₂ : Ts) (h₁ : Shown (.ok t₁)) (h₂ : Shown (.ok t₂)) (ops : List (WatchOp × Reading))
    (h : ∀ op ∈ ops, Shown op.2) :
    ∃ w w', ClockFail.watchNew .debug (.ok t₁) (.ok t₂) = .ok w ∧
      runOps (watchStep .debug) w ops = some (w', (runSpec reporting ⟨t₁.total, t₂.total⟩ ops).2) := by
  refine ⟨⟨some t₁, some t₂⟩, ?_⟩
  have hl : ∀ (ops : List (WatchOp × Reading)) (s : Marks), (∀ op ∈ ops, Shown op.2) →
      Legal reporting (fun _ op => Shown op.2) s ops := by
    intro ops
    induction ops with
    | nil => intro s _; trivial
    | cons op ops ih =>
      intro s hs
      exact ⟨hs op List.mem_cons_self, ih _ fun o ho => hs o (List.mem_cons_of_mem _ ho)⟩
  obtain ⟨w', hr, _⟩ := refines (watchStep .debug) reporting (fun _ op => Shown op.2)
    (fun w s => At w.start s.start ∧ At w.split s.split)
    (fun w s op hR hL => debug_step w s op hR.1 hR.2 hL) ops ⟨some t₁, some t₂⟩ ⟨t₁.total, t₂.total⟩
    ⟨⟨t₁, rfl, h₁, rfl⟩, ⟨t₂, rfl, h₂, rfl⟩⟩ (hl ops _ h)
  exact ⟨w', rfl, hr⟩

example : (runOps (watchStep .debug) ⟨some ⟨10, 0⟩, some ⟨10, 0⟩⟩
    [(.elapsed, .ok ⟨11, 5⟩), (.restart, .error 22), (.split, .error 1), (.elapsed, .ok ⟨12, 0⟩)]).map (·.2) =
    some [.ok (some ⟨1, 5⟩), .error .notSupportedError, .error .unknownError, .ok (some ⟨2, 0⟩)] := by decide

/-- **C127, partial** (debug builds): no stop watch comes into being while the clock fails. -/
theorem C127_stopwatch_new_partial (r₁ r₂ : Reading) :
    ClockFail.watchNew .debug r₁ r₂ =
      match r₁, r₂ with
      | .error e, _ => .throw (reason e)
      | .ok _, .error e => .throw (reason e)
      | .ok t₁, .ok t₂ => .ok ⟨some t₁, some t₂⟩ := by
  cases r₁ <;> cases r₂ <;> simp [ClockFail.watchNew, stamp, flag_reason]

/-- **C127, partial** (release builds): in every history in which the clock answers each `elapsed()`, a failing restart
goes back to the start before and a failing split answers that no time has passed; nothing is reported. -/
theorem C127_stopwatch_release_partial (t₁ t₂ : Ts) (h₁ : Shown (.ok t₁)) (h₂ : Shown (.ok t₂))
    (ops : List (WatchOp × Reading)) (h : ∀ op ∈ ops, Shown op.2)
    (he : ∀ r, (WatchOp.elapsed, r) ∈ ops → ∃ t, r = .ok t) :
    ∃ w w', ClockFail.watchNew .release (.ok t₁) (.ok t₂) = .ok w ∧
      runOps (watchStep .release) w ops = some (w', (runSpec silent ⟨t₁.total, t₂.total⟩ ops).2) := by
  refine ⟨⟨some t₁, some t₂⟩, ?_⟩
  have hl : ∀ (ops : List (WatchOp × Reading)) (s : Marks), (∀ op ∈ ops, Shown op.2) →
      (∀ r, (WatchOp.elapsed, r) ∈ ops → ∃ t, r = .ok t) →
      Legal silent (fun _ op => Shown op.2 ∧ (op.1 = .elapsed → ∃ t, op.2 = .ok t)) s ops := by
    intro ops
    induction ops with
    | nil => intro s _ _; trivial
    | cons op ops ih =>
      intro s hs hq
      refine ⟨⟨hs op List.mem_cons_self, ?_⟩, ih _ (fun o ho => hs o (List.mem_cons_of_mem _ ho))
        fun r hr => hq r (List.mem_cons_of_mem _ hr)⟩
      obtain ⟨o, r⟩ := op
      rintro rfl
      exact hq r List.mem_cons_self
  obtain ⟨w', hr, _⟩ := refines (watchStep .release) silent
    (fun _ op => Shown op.2 ∧ (op.1 = .elapsed → ∃ t, op.2 = .ok t))
    (fun w s => At w.start s.start ∧ At w.split s.split)
    (fun w s op hR hL => release_step w s op hR.1 hR.2 hL.1 hL.2) ops ⟨some t₁, some t₂⟩ ⟨t₁.total, t₂.total⟩
    ⟨⟨t₁, rfl, h₁, rfl⟩, ⟨t₂, rfl, h₂, rfl⟩⟩ (hl ops _ h he)
  exact ⟨w', rfl, hr⟩

example : (runOps (watchStep .release) ⟨some ⟨10, 0⟩, some ⟨10, 0⟩⟩
    [(.split, .ok ⟨15, 0⟩), (.split, .error 22), (.restart, .error 22), (.split, .ok ⟨16, 0⟩)]).map (·.2) =
    some [.ok (some ⟨5, 0⟩), .ok (some ⟨0, 0⟩), .ok none, .ok (some ⟨6, 0⟩)] := by decide

/-- **C127, refuted** (release builds): `elapsed()` with a failing clock is undefined, whatever the watch; so are the
first `elapsed()` and `split()` of a watch made while the clock failed, and its restart while it goes on failing. -/
theorem C127_fails_release (e : Nat) (r : Reading) :
    (∀ w, watchStep .release w (.elapsed, .error e) = .ub) ∧
    ClockFail.watchNew .release (.error e) (.error e) = .ok ⟨none, none⟩ ∧
    watchStep .release ⟨none, none⟩ (.elapsed, r) = .ub ∧ watchStep .release ⟨none, none⟩ (.split, r) = .ub ∧
    watchStep .release ⟨none, none⟩ (.restart, .error e) = .ub := by
  refine ⟨fun w => ?_, rfl, ?_, rfl, rfl⟩
  · simp [watchStep, stamp, minus]
  · cases r <;> simp [watchStep, stamp, minus]

/-- **C127, refuted** (release builds): after a restart that failed the elapsed time is counted from the start before. -/
theorem C127_fails_restart : (runOps (watchStep .release) ⟨some ⟨10, 0⟩, some ⟨10, 0⟩⟩
    [(.restart, .error 22), (.elapsed, .ok ⟨100, 0⟩)]).map (·.2) = some [.ok none, .ok (some ⟨90, 0⟩)] := by decide

/-- **C127, refuted** (all builds): a watch of processor time never reports a failing clock; for it time stands still at
the last reading, in every history. -/
theorem C127_fails_cpu_silent (m : Mode) (t₁ t₂ t : Ts) (h : Shown (.ok t)) (ops : List (WatchOp × Reading))
    (hs : ∀ op ∈ ops, Shown op.2) :
    ∃ w w', cpuNew m (.ok t₁) (.ok t₂) (.ok t) = .ok w ∧
      runOps (cpuStep m) w ops = some (w', (runSpec frozen (⟨t.total, t.total⟩, t.total) ops).2) ∧
      ∀ e, Except.error e ∉ (runSpec frozen (⟨t.total, t.total⟩, t.total) ops).2 := by
  refine ⟨⟨some t, some t, some t⟩, ?_⟩
  have hl : ∀ (ops : List (WatchOp × Reading)) (s : Marks × Int), (∀ op ∈ ops, Shown op.2) →
      Legal frozen (fun _ op => Shown op.2) s ops := by
    intro ops
    induction ops with
    | nil => intro s _; trivial
    | cons op ops ih =>
      intro s hs
      exact ⟨hs op List.mem_cons_self, ih _ fun o ho => hs o (List.mem_cons_of_mem _ ho)⟩
  obtain ⟨w', hr, hq⟩ := refines (cpuStep m) frozen (fun _ op => Shown op.2)
    (fun w s => At w.start s.1.start ∧ At w.split s.1.split ∧ At w.tmp s.2)
    (fun w s op hR hL => cpu_step m w s op hR.1 hR.2.1 hR.2.2 hL) ops ⟨some t, some t, some t⟩ (⟨t.total, t.total⟩, t.total)
    ⟨⟨t, rfl, h, rfl⟩, ⟨t, rfl, h, rfl⟩, ⟨t, rfl, h, rfl⟩⟩ (hl ops _ hs)
  refine ⟨w', ?_, hr, ?_⟩
  · cases m <;> simp [cpuNew, ClockFail.watchNew, stamp, cpuRestart, fetch, stampFrom, mk_valid _ h.1]
  · intro e
    generalize ((⟨t.total, t.total⟩, t.total) : Marks × Int) = s
    clear hs hr hq hl
    revert s
    induction ops with
    | nil => intro s; simp [runSpec]
    | cons op ops ih =>
      intro s
      simp only [runSpec, List.mem_cons, not_or]
      refine ⟨?_, ih (frozen s op).1⟩
      obtain ⟨o, r⟩ := op
      cases r <;> cases o <;> simp [frozen, good]

example : (runOps (cpuStep .debug) ⟨some ⟨1, 0⟩, some ⟨1, 0⟩, some ⟨1, 0⟩⟩
    [(.elapsed, .ok ⟨3, 0⟩), (.elapsed, .error 22), (.restart, .error 22), (.elapsed, .ok ⟨9, 0⟩)]).map (·.2) =
    some [.ok (some ⟨2, 0⟩), .ok (some ⟨2, 0⟩), .ok none, .ok (some ⟨6, 0⟩)] := by decide

/-- **C127, refuted** (all builds): making a watch of processor time is undefined if its clock fails, although the system
clock, which it asks first and for nothing, is fine; and in debug builds it is refused if only the system clock fails. -/
theorem C127_fails_cpu_new (m : Mode) (t₁ t₂ : Ts) (e : Nat) (r : Reading) :
    cpuNew m (.ok t₁) (.ok t₂) (.error e) = .ub ∧
      cpuNew .debug (.error e) (.ok t₂) r = .throw (reason e) ∧ cpuNew .debug (.ok t₁) (.error e) r = .throw (reason e) := by
  refine ⟨?_, ?_, ?_⟩
  · cases m <;> simp [cpuNew, ClockFail.watchNew, stamp, cpuRestart, fetch, stampFrom]
  · simp [cpuNew, ClockFail.watchNew, stamp, flag_reason]
  · simp [cpuNew, ClockFail.watchNew, stamp, flag_reason]

/-- **C127, partial**: a snooze whose clock answers until it has found its time asks for the time of C20, whatever the
clock does afterwards.  Missing: the other snoozes, see the refutation. -/
theorem C127_snooze_partial (v : Bool) (p t : Ts) (rs : List Ts) (later : List Reading) (w : Ts) (left : List Ts)
    (h : Time.snooze v p t rs = some (w, left)) :
    ∃ rest, ClockFail.snooze v p (some t) (rs.map .ok ++ later) = some (.ok (w, rest)) := by
  have hv : ∀ (rs left : List Ts) (tv w : Ts), Time.validate v p tv rs = some (w, left) →
      ClockFail.validate v p tv (rs.map .ok ++ later) = some (.ok (w, left.map .ok ++ later)) := by
    intro rs
    induction rs with
    | nil => intro left tv w hw; simp [Time.validate] at hw
    | cons r rs ih =>
      intro left tv w hw
      simp only [List.map_cons, List.cons_append, ClockFail.validate, fetch]
      simp only [Time.validate] at hw
      by_cases hc : Time.later r tv = true
      · rw [if_pos hc] at hw ⊢
        cases v
        · simp at hw ⊢; exact ⟨hw.1, by rw [hw.2]⟩
        · simp only [if_true] at hw ⊢
          exact ih _ _ _ hw
      · rw [if_neg hc] at hw ⊢
        simp at hw ⊢; exact ⟨hw.1, by rw [hw.2]⟩
  refine ⟨left.map .ok ++ later, ?_⟩
  unfold Time.snooze Time.addPeriod at h
  unfold ClockFail.snooze
  cases v
  · simp only [Bool.false_eq_true, if_false, Option.bind_some] at h ⊢
    exact hv _ _ _ _ h
  · simp only [if_true] at h ⊢
    cases hq : Time.validate true p (bump p t) rs with
    | none => rw [hq] at h; simp at h
    | some q =>
      rw [hq] at h
      rw [hv rs q.2 (bump p t) q.1 hq]
      exact hv _ _ _ _ h

example : Time.snooze false ⟨0, 10⟩ ⟨5, 0⟩ [⟨5, 3⟩] = some (⟨5, 10⟩, []) ∧
    ClockFail.snooze false ⟨0, 10⟩ (some ⟨5, 0⟩) [.ok ⟨5, 3⟩] = some (.ok (⟨5, 10⟩, [])) := by decide

/-- **C127, refuted** (all builds): a snooze whose clock fails before it has found its time is undefined; in particular
one whose first reading fails, and every snooze of an object made while the clock failed. -/
theorem C127_fails_snooze (v : Bool) (p t : Ts) (rs : List Ts) (e : Nat) (rest : List Reading)
    (h : Time.snooze v p t rs = none) :
    ClockFail.snooze v p (some t) (rs.map .ok ++ .error e :: rest) = some .ub ∧
      ClockFail.snooze v p none rest = some .ub := by
  refine ⟨?_, rfl⟩
  unfold Time.snooze Time.addPeriod at h
  unfold ClockFail.snooze
  cases v
  · simp only [Bool.false_eq_true, if_false, Option.bind_some] at h ⊢
    rw [validate_prefix, h]
  · simp only [if_true] at h ⊢
    rw [validate_prefix]
    cases hq : Time.validate true p (bump p t) rs with
    | none => rfl
    | some q =>
      rw [hq] at h
      simp only [Option.bind_some] at h ⊢
      rw [validate_prefix, h]

example (v : Bool) (p t : Ts) : Time.snooze v p t [] = none := by
  cases v <;> simp [Time.snooze, Time.addPeriod, Time.validate]

/-- **C127, partial** (debug builds): a monitor whose clock fails only when it is asked for a report gives the reports
it would give without these calls.  Missing: updates with a failing clock, see the refutation. -/
theorem C127_monitor_partial (f g : Freq) (ops : List (FreqCall × Reading))
    (hu : ∀ r, (FreqCall.update, r) ∈ ops → ∃ t, r = .ok t)
    (h : Time.freqRun .debug f (ops.filterMap fun op =>
      match op with
      | (.update, .ok t) => some (.update t)
      | (.analyse, .ok t) => some (.analyse t)
      | _ => none) = .ok g) :
    (runOps (ClockFail.freqStep .debug) f ops).map (·.1) = some g := by
  induction ops generalizing f with
  | nil => simp [Time.freqRun] at h; simp [runOps, h]
  | cons op ops ih =>
    have hu' : ∀ r, (FreqCall.update, r) ∈ ops → ∃ t, r = .ok t := fun r hr => hu r (List.mem_cons_of_mem _ hr)
    obtain ⟨o, r⟩ := op
    rw [runOps_cons]
    cases r with
    | error e =>
      cases o with
      | update =>
        obtain ⟨t, ht⟩ := hu (.error e) List.mem_cons_self
        exact absurd ht (by simp)
      | analyse =>
        simp only [List.filterMap_cons] at h
        have hi := ih f hu' h
        simp only [ClockFail.freqStep, ClockFail.freqAnalyse, stamp, Res.obs, Option.bind_some, Option.map_map]
        exact hi
    | ok t =>
      cases o with
      | update =>
        simp only [List.filterMap_cons, Time.freqRun, Time.freqStep, Time.freqUpdate] at h
        simp only [ClockFail.freqStep, ClockFail.freqUpdate, stamp, minus]
        cases hd : sub .debug t f.lastIncoming with
        | ok d =>
          rw [hd] at h
          simp only [Outcome.bind_ok] at h
          simp only [Res.obs, Option.bind_some, Option.map_map]
          exact ih _ hu' h
        | throw e => rw [hd] at h; simp at h
        | ub => rw [hd] at h; simp at h
      | analyse =>
        simp only [List.filterMap_cons, Time.freqRun, Time.freqStep] at h
        simp only [ClockFail.freqStep, ClockFail.freqAnalyse, stamp]
        cases hd : Time.freqAnalyse .debug f t with
        | ok d =>
          rw [hd] at h
          simp only [Outcome.bind_ok] at h
          simp only [Res.obs, Option.bind_some, Option.map_map]
          exact ih _ hu' h
        | throw e => rw [hd] at h; simp at h
        | ub => rw [hd] at h; simp at h

/-- **C127, refuted** (debug builds): updates that threw because the clock failed are counted all the same.  A monitor
that has only seen such updates reports a connection, as many events as there were, a shortest interval of 100000
seconds and a longest one of none. -/
theorem C127_fails_monitor (period t₁ t₂ now : Ts) (e n : Nat) (hn : n + 1 < 4294967296) (h₁ : Shown (.ok t₁))
    (hw : Shown (.ok now)) (hp : period.Norm) (h : period.total < now.total - t₁.total) :
    ∃ f, runOps (ClockFail.freqStep .debug) (freqNew period t₁ t₂)
        (List.replicate (n + 1) (.update, .error e) ++ [(.analyse, .ok now)]) =
          some (f, List.replicate (n + 1) (.error (reason e)) ++ [.ok ()]) ∧
      f.connected = true ∧ f.hz = some (n + 1, span (now.total - t₁.total)) ∧
      f.repMin = ⟨100000, 0⟩ ∧ f.repMax = ⟨0, 0⟩ := by
  have happ : ∀ (l : List (FreqCall × Reading)) (f g : Freq) (os : List (Obs Unit)) (op : FreqCall × Reading) (q : Freq),
      runOps (ClockFail.freqStep .debug) f l = some (g, os) → ClockFail.freqStep .debug g op = .ok q () →
      runOps (ClockFail.freqStep .debug) f (l ++ [op]) = some (q, os ++ [.ok ()]) := by
    intro l
    induction l with
    | nil =>
      intro f g os op q h1 h2
      simp [runOps] at h1
      obtain ⟨rfl, rfl⟩ := h1
      simp [runOps, h2]
    | cons o l ih =>
      intro f g os op q h1 h2
      rw [runOps_cons] at h1
      rw [List.cons_append, runOps_cons]
      cases hs : (ClockFail.freqStep .debug f o).obs with
      | none => rw [hs] at h1; simp at h1
      | some r =>
        rw [hs] at h1
        simp only [Option.bind_some] at h1 ⊢
        cases hr : runOps (ClockFail.freqStep .debug) r.1 l with
        | none => rw [hr] at h1; simp at h1
        | some x =>
          rw [hr] at h1
          simp only [Option.map_some, Option.some.injEq, Prod.mk.injEq] at h1
          obtain ⟨rfl, rfl⟩ := h1
          rw [ih r.1 x.1 x.2 op q hr h2]
          rfl
  have hs : sub .debug now t₁ = .ok (span (now.total - t₁.total)) := sub_span _ hw h₁
  obtain ⟨r, hr, hn', ht⟩ := sub_clock .debug hw.1 h₁.1 hw.2 h₁.2
  have he : span (now.total - t₁.total) = r := by rw [← ht]; exact span_norm hn'
  have hg : gt (span (now.total - t₁.total)) period = true := by rw [he]; exact (gt_iff hn' hp).2 (by omega)
  have hm : (0 + (n + 1)) % 4294967296 = n + 1 := by omega
  refine ⟨{ freqNew period t₁ t₂ with
      lastAnalysed := now, connected := true, repMin := ⟨100000, 0⟩, repMax := ⟨0, 0⟩,
      hz := some (n + 1, span (now.total - t₁.total)), count := 0 },
    happ _ _ _ _ (.analyse, .ok now) _ (updates_fail e n (freqNew period t₁ t₂)) ?_, rfl, rfl, rfl, rfl⟩
  simp [ClockFail.freqStep, ClockFail.freqAnalyse, stamp, Time.freqAnalyse, freqNew, hs, hg, Nat.mod_eq_of_lt hn]

example : ((runOps (ClockFail.freqStep .debug) (freqNew ⟨1, 0⟩ ⟨10, 0⟩ ⟨10, 0⟩)
    [(.update, .error 22), (.analyse, .error 22), (.update, .error 22), (.analyse, .ok ⟨12, 0⟩)]).map
      fun r => (r.1.hz, r.2)) =
    some (some (2, ⟨2, 0⟩), [.error .notSupportedError, .error .notSupportedError, .error .notSupportedError, .ok ()]) := by
  decide

/-- **C127, partial** (debug builds for the report): a sleep takes the time asked for or ends early by a signal; then it
reports so in debug builds, and nothing in release builds.  For every sequence of calls on a sleep object and every
pattern of signals, with the arguments for which C19 holds. -/
theorem C127_sleep_partial (m : Mode) (k : SleepKind) (n₀ : Nat) (ops : List (SleepOp × Option Nat))
    (h : Modest k (n₀ :: arguments (ops.map (·.1)))) :
    ClockFail.sleepRuns m k (sleepCtor k n₀) ops =
      List.zipWith (ends m) (wanted k (n₀ * unit k) (ops.map (·.1))) (ops.map (·.2)) := by
  have h0 := h n₀ List.mem_cons_self
  have h1 : ∀ n, SleepOp.call n ∈ ops.map (·.1) → _ := fun n hn => h n (List.mem_cons_of_mem _ (mem_arguments hn))
  by_cases hk : k = .sec ∨ k = .milli
  · simp only [if_pos hk] at h0 h1
    obtain ⟨a, b⟩ := C19_sleep_millisleep k hk n₀ (ops.map (·.1)) h0 h1
    exact sleepRuns_ends m k ops _ _ a b
  · simp only [if_neg hk] at h0 h1
    have hk' : k = .micro ∨ k = .nano := by cases k <;> simp at hk ⊢
    obtain ⟨a, b⟩ := C19_micro_nano_partial k hk' n₀ (ops.map (·.1)) h0 h1
    exact sleepRuns_ends m k ops _ _ a b

example : ClockFail.sleepRuns .debug .milli (sleepCtor .milli 1500) [(.fixed, some 7), (.call 20, none), (.fixed, some 30000000)]
    = [(7, .error .interruptedError), (20000000, .ok ()), (20000000, .ok ())] := by decide

/-- **C127, refuted** (release builds): a sleep of any length that a signal ends at once returns like one that took its
time. -/
theorem C127_fails_sleep (n : Nat) (h : n < 9223372036854775808) (h0 : 0 < n) :
    ClockFail.sleepRuns .release .sec (sleepCtor .sec n) [(.fixed, some 0)] = [(0, .ok ())] := by
  have := C127_sleep_partial .release .sec n [(.fixed, some 0)] (by
    intro k hk
    simp [arguments] at hk
    subst hk
    simpa using h)
  rw [this]
  have hp : 0 < n * 1000000000 := by omega
  simp [wanted, ends, unit, hp]

/-- **C127, refuted**: `MicroSleep` and `NanoSleep` called with a second or more do not sleep at all: a debug build
reports an invalid input, a release build returns as if the time had passed. -/
theorem C127_fails_sleep_long (m : Mode) (n₀ n : Nat) (sig : Option Nat) (hn : n < 9223372036854775) :
    (1000000 ≤ n → ClockFail.sleepRuns m .micro (sleepCtor .micro n₀) [(.call n, sig)] =
      [(0, if m = .debug then .error .invalidInputError else .ok ())]) ∧
    (1000000000 ≤ n → ClockFail.sleepRuns m .nano (sleepCtor .nano n₀) [(.call n, sig)] =
      [(0, if m = .debug then .error .invalidInputError else .ok ())]) := by
  have key : ∀ (k : SleepKind) (req : Ts), 1000000000 ≤ (sleepReq k req (.call n)).nsec →
      ClockFail.sleepRuns m k req [(.call n, sig)] = [(0, if m = .debug then .error .invalidInputError else .ok ())] := by
    intro k req h
    simp only [ClockFail.sleepRuns, sleepStep, nanosleep, if_pos (Or.inr (Or.inr h) :
      _ ∨ _ ∨ 1000000000 ≤ (sleepReq k req (.call n)).nsec)]
    cases m <;> simp [sleepFlag]
  refine ⟨fun h => key _ _ ?_, fun h => key _ _ ?_⟩
  · simp only [sleepReq]; rw [toLong_small (by omega)]; omega
  · simp only [sleepReq]; rw [toLong_small (by omega)]; omega

example : ClockFail.sleepRuns .release .micro (sleepCtor .micro 5) [(.call 2000000, none)] = [(0, .ok ())] := by decide

end Ecl.Props
