import Verif.Lemmas.Time
import Verif.Spec.ClockFailure
import Verif.Props.C16_C22_Time

/-!
# Lemmas about clocks that fail
-/
set_option autoImplicit false

namespace Ecl.ClockFail
open Ecl.Time Ecl.Spec.ClockFail

theorem flag_reason (e : Nat) : timeStampFlag e = reason e := by
  unfold reason
  by_cases h : e = 22
  · subst h; rfl
  by_cases h' : e = 14
  · subst h'; rfl
  rw [if_neg h, if_neg h']
  unfold timeStampFlag
  split
  · exact absurd rfl h
  · exact absurd rfl h'
  · rfl

theorem span_norm {r : Ts} (h : r.Norm) : span r.total = r := by
  obtain ⟨s, n⟩ := r
  have ht : (Ts.mk s n).total = s * 1000000000 + n := rfl
  generalize (Ts.mk s n).total = t at ht
  simp only [Ts.Norm] at h
  unfold span
  split <;> simp only [Ts.mk.injEq] <;> omega

theorem sub_span (m : Mode) {a b : Ts} (ha : a.Valid ∧ a.sec ≤ longMax) (hb : b.Valid ∧ b.sec ≤ longMax) :
    sub m a b = .ok (span (a.total - b.total)) := by
  obtain ⟨r, h1, h2, h3⟩ := sub_clock m ha.1 hb.1 ha.2 hb.2
  rw [h1, ← h3, span_norm h2]

theorem mk_valid (m : Mode) {a : Ts} (ha : a.Valid) : mk m a.sec a.nsec = .ok a :=
  mk_ok m _ _ ha.norm.2.2.1 ha.norm.2.2.2

/-- A stamp in memory shows the given time. -/
def At (c : Cell) (t : Int) : Prop := ∃ a : Ts, c = some a ∧ (a.Valid ∧ a.sec ≤ longMax) ∧ a.total = t

theorem debug_step (w : Watch) (s : Marks) (op : WatchOp × Reading) (h1 : At w.start s.start) (h2 : At w.split s.split)
    (h : Shown op.2) : ∃ w', (watchStep .debug w op).obs = some (w', (reporting s op).2) ∧
      At w'.start (reporting s op).1.start ∧ At w'.split (reporting s op).1.split := by
  obtain ⟨a, ha, va, ta⟩ := h1
  obtain ⟨b, hb, vb, tb⟩ := h2
  obtain ⟨op, r⟩ := op
  cases r with
  | error e => 
    refine ⟨w, ?_, ⟨a, ha, va, ta⟩, ⟨b, hb, vb, tb⟩⟩
    obtain ⟨ws, wp⟩ := w
    simp only at ha hb
    subst ha hb
    cases op <;> simp [watchStep, stamp, Res.obs, reporting, flag_reason]
  | ok t =>
    have ht : t.Valid ∧ t.sec ≤ longMax := h
    cases op with
    | restart =>
      exact ⟨⟨some t, some t⟩, by simp [watchStep, stamp, Res.obs, reporting, good], ⟨t, rfl, ht, rfl⟩, ⟨t, rfl, ht, rfl⟩⟩
    | elapsed =>
      refine ⟨w, ?_, ⟨a, ha, va, ta⟩, ⟨b, hb, vb, tb⟩⟩
      simp [watchStep, stamp, Res.obs, reporting, good, ha, minus, sub_span _ ht va, ta]
    | split =>
      refine ⟨⟨w.start, some t⟩, ?_, ⟨a, ha, va, ta⟩, ⟨t, rfl, ht, rfl⟩⟩
      simp [watchStep, stamp, Res.obs, reporting, good, hb, minus, sub_span _ ht vb, tb]

theorem release_step (w : Watch) (s : Marks) (op : WatchOp × Reading) (h1 : At w.start s.start)
    (h2 : At w.split s.split) (h : Shown op.2) (he : op.1 = .elapsed → ∃ t, op.2 = .ok t) :
    ∃ w', (watchStep .release w op).obs = some (w', (silent s op).2) ∧
      At w'.start (silent s op).1.start ∧ At w'.split (silent s op).1.split := by
  obtain ⟨a, ha, va, ta⟩ := h1
  obtain ⟨b, hb, vb, tb⟩ := h2
  obtain ⟨op, r⟩ := op
  cases r with
  | error e =>
    cases op with
    | restart =>
      exact ⟨⟨some a, some a⟩, by simp [watchStep, stamp, Res.obs, silent, ha], ⟨a, rfl, va, ta⟩, ⟨a, rfl, va, ta⟩⟩
    | elapsed =>
      obtain ⟨t, ht⟩ := he rfl
      exact absurd ht (by simp)
    | split =>
      refine ⟨⟨w.start, some b⟩, ?_, ⟨a, ha, va, ta⟩, ⟨b, rfl, vb, tb⟩⟩
      simp [watchStep, stamp, Res.obs, silent, hb, minus, sub_span _ vb vb]
      decide
  | ok t =>
    have ht : t.Valid ∧ t.sec ≤ longMax := h
    cases op with
    | restart =>
      exact ⟨⟨some t, some t⟩, by simp [watchStep, stamp, Res.obs, silent, good], ⟨t, rfl, ht, rfl⟩, ⟨t, rfl, ht, rfl⟩⟩
    | elapsed =>
      refine ⟨w, ?_, ⟨a, ha, va, ta⟩, ⟨b, hb, vb, tb⟩⟩
      simp [watchStep, stamp, Res.obs, silent, good, ha, minus, sub_span _ ht va, ta]
    | split =>
      refine ⟨⟨w.start, some t⟩, ?_, ⟨a, ha, va, ta⟩, ⟨t, rfl, ht, rfl⟩⟩
      simp [watchStep, stamp, Res.obs, silent, good, hb, minus, sub_span _ ht vb, tb]

theorem cpu_step (m : Mode) (w : CpuWatch) (s : Marks × Int) (op : WatchOp × Reading) (h1 : At w.start s.1.start)
    (h2 : At w.split s.1.split) (h3 : At w.tmp s.2) (h : Shown op.2) :
    ∃ w', (cpuStep m w op).obs = some (w', (frozen s op).2) ∧ At w'.start (frozen s op).1.1.start ∧
      At w'.split (frozen s op).1.1.split ∧ At w'.tmp (frozen s op).1.2 := by
  obtain ⟨a, ha, va, ta⟩ := h1
  obtain ⟨b, hb, vb, tb⟩ := h2
  obtain ⟨op, r⟩ := op
  have key : ∃ t : Ts, fetch w.tmp r = some t ∧ (t.Valid ∧ t.sec ≤ longMax) ∧
      frozen s (op, r) = (((good s.1 t.total op).1, t.total), (good s.1 t.total op).2) := by
    cases r with
    | ok t => exact ⟨t, rfl, h, rfl⟩
    | error e =>
      obtain ⟨c, hc, vc, tc⟩ := h3
      exact ⟨c, by simp [fetch, hc], vc, by simp [frozen, tc]⟩
  obtain ⟨t, hf, ht, hg⟩ := key
  rw [hg]
  cases op with
  | restart =>
    refine ⟨⟨some t, some t, some t⟩, ?_, ⟨t, rfl, ht, rfl⟩, ⟨t, rfl, ht, rfl⟩, ⟨t, rfl, ht, rfl⟩⟩
    simp [cpuStep, cpuRestart, hf, stampFrom, mk_valid m ht.1, Res.obs, good]
  | elapsed =>
    refine ⟨⟨w.start, w.split, some t⟩, ?_, ⟨a, ha, va, ta⟩, ⟨b, hb, vb, tb⟩, ⟨t, rfl, ht, rfl⟩⟩
    simp [cpuStep, hf, stampFrom, mk_valid m ht.1, Res.obs, good, minus, ha, sub_span m ht va, ta]
  | split =>
    refine ⟨⟨w.start, some t, some t⟩, ?_, ⟨a, ha, va, ta⟩, ⟨t, rfl, ht, rfl⟩, ⟨t, rfl, ht, rfl⟩⟩
    simp [cpuStep, hf, stampFrom, mk_valid m ht.1, Res.obs, good, minus, hb, sub_span m ht vb, tb]

/-! ## Snooze -/

theorem validate_prefix (v : Bool) (p : Ts) (e : Nat) (rest : List Reading) : ∀ (rs : List Ts) (tv : Ts),
    ClockFail.validate v p tv (rs.map .ok ++ .error e :: rest) =
      some (match Time.validate v p tv rs with
        | some (w, left) => .ok (w, left.map .ok ++ .error e :: rest)
        | none => .ub) := by
  intro rs
  induction rs with
  | nil => intro tv; simp [ClockFail.validate, fetch, Time.validate]
  | cons r rs ih =>
    intro tv
    simp only [List.map_cons, List.cons_append, ClockFail.validate, fetch, Time.validate]
    by_cases h : later r tv = true
    · rw [if_pos h, if_pos h]
      cases v
      · simp
      · simp only [if_true]
        exact ih _
    · rw [if_neg h, if_neg h]

/-! ## Sleep -/

theorem nanosleep_ends (m : Mode) (k : SleepKind) (req : Ts) (op : SleepOp) (sig : Option Nat)
    (hv : (sleepReq k req op).Valid) (w : Nat) (hw : (sleepReq k req op).total = w) :
    sleepStep m k req (op, sig) = (sleepReq k req op, ends m w sig) := by
  generalize hr : sleepReq k req op = q at hv hw
  have hn : ¬ (q.sec < 0 ∨ q.nsec < 0 ∨ 1000000000 ≤ q.nsec) := by
    unfold Ts.Valid at hv; omega
  have ht : (q.sec * 1000000000 + q.nsec).toNat = w := by
    unfold Ts.total at hw; omega
  simp only [sleepStep, hr, nanosleep, if_neg hn, ht]
  cases sig with
  | none => simp [ends]
  | some d =>
    by_cases hd : d < w
    · cases m <;> simp [ends, hd, sleepFlag]
    · simp [ends, hd]

theorem sleepRuns_ends (m : Mode) (k : SleepKind) : ∀ (ops : List (SleepOp × Option Nat)) (req : Ts) (last : Nat),
    (Time.sleepRuns k req (ops.map (·.1))).map Ts.total = (wanted k last (ops.map (·.1))).map Int.ofNat →
    (∀ r ∈ Time.sleepRuns k req (ops.map (·.1)), r.Valid) →
    ClockFail.sleepRuns m k req ops = List.zipWith (ends m) (wanted k last (ops.map (·.1))) (ops.map (·.2)) := by
  intro ops
  induction ops with
  | nil => intro req last _ _; simp [ClockFail.sleepRuns]
  | cons op ops ih =>
    intro req last h1 h2
    obtain ⟨op, sig⟩ := op
    have hv : (sleepReq k req op).Valid := h2 _ (by simp [Time.sleepRuns])
    cases op with
    | fixed =>
      simp only [List.map_cons, Time.sleepRuns, wanted, List.cons.injEq] at h1 h2
      rw [ClockFail.sleepRuns, nanosleep_ends m k req .fixed sig hv last h1.1, List.map_cons, List.map_cons, wanted,
        List.zipWith_cons_cons]
      exact congrArg _ (ih _ _ h1.2 fun r hr => h2 r (List.mem_cons_of_mem _ hr))
    | call n =>
      simp only [List.map_cons, Time.sleepRuns, wanted, List.cons.injEq] at h1 h2
      rw [ClockFail.sleepRuns, nanosleep_ends m k req (.call n) sig hv (n * unit k) h1.1, List.map_cons, List.map_cons,
        wanted, List.zipWith_cons_cons]
      exact congrArg _ (ih _ _ h1.2 fun r hr => h2 r (List.mem_cons_of_mem _ hr))

theorem mem_arguments {n : Nat} : ∀ {ops : List SleepOp}, SleepOp.call n ∈ ops → n ∈ arguments ops := by
  intro ops
  induction ops with
  | nil => intro h; exact absurd h (by simp)
  | cons op ops ih =>
    intro h
    cases op with
    | fixed =>
      rcases List.mem_cons.1 h with h | h
      · exact absurd h (by simp)
      · exact ih h
    | call k =>
      rcases List.mem_cons.1 h with h | h
      · injection h with h; subst h; exact List.mem_cons_self
      · exact List.mem_cons_of_mem _ (ih h)

/-! ## FrequencyMonitor -/

theorem updates_fail (e : Nat) : ∀ (n : Nat) (f : Freq),
    runOps (freqStep .debug) f (List.replicate (n + 1) (.update, .error e)) =
      some ({ f with connected := true, count := (f.count + (n + 1)) % 4294967296 },
        List.replicate (n + 1) (.error (reason e))) := by
  intro n
  induction n with
  | zero => intro f; simp [runOps, freqStep, freqUpdate, stamp, flag_reason]
  | succ n ih =>
    intro f
    rw [List.replicate_succ, runOps_cons]
    simp only [freqStep, freqUpdate, stamp, Res.obs, Option.bind_some, ih, Option.map_some]
    have hc : ((f.count + 1) % 4294967296 + (n + 1)) % 4294967296 = (f.count + (n + 1 + 1)) % 4294967296 := by omega
    rw [flag_reason, List.replicate_succ (n := n + 1), hc]

end Ecl.ClockFail
