import Verif.Spec.Log

/-!
# C47: log streams
-/
set_option autoImplicit false
set_option linter.unusedSimpArgs false

namespace Ecl.Props
open Ecl Ecl.Spec Ecl.LogStream

private theorem find_filter (ms : List (Int × List Char)) (m k : Int) :
    find k (ms.filter fun p => p.1 ≠ m) = if k = m then none else find k ms := by
  induction ms with
  | nil => simp [find]
  | cons p ms ih =>
    obtain ⟨a, h⟩ := p
    by_cases ha : a = m
    · subst ha
      simp only [ne_eq, not_true_eq_false, decide_false, List.filter_cons, Bool.false_eq_true,
        if_false, find]
      rw [show (List.filter (fun p => decide ¬ p.1 = a) ms) = ms.filter fun p => p.1 ≠ a from rfl, ih]
      by_cases hk : k = a
      · simp [hk]
      · rw [if_neg hk, if_neg hk, if_neg (Ne.symm hk)]
    · simp only [ne_eq, List.filter_cons, ha, not_false_eq_true, decide_true, if_true, find]
      rw [show (List.filter (fun p => decide ¬ p.1 = m) ms) = ms.filter fun p => p.1 ≠ m from rfl, ih]
      by_cases hk : k = m
      · subst hk; simp [ha]
      · simp [hk]

private theorem find_append (ms : List (Int × List Char)) (m k : Int) (h : List Char) :
    find k (ms ++ [(m, h)]) = (find k ms).or (if k = m then some h else none) := by
  induction ms with
  | nil => by_cases hk : k = m <;> simp [find, hk, Ne.symm]
  | cons p ms ih =>
    obtain ⟨a, g⟩ := p
    by_cases ha : a = k <;> simp [find, ha, ih]

private def Rel (s : LogStream) (l : Log) : Prop :=
  s.writeHeader = some l.header ∧ s.writeStamp = some l.stamp ∧ s.text = l.text ∧
    ∀ k, find k s.modes = l.on k

private theorem any_iff (ms : List (Int × List Char)) : ms.length > 0 ↔ ∃ m, (find m ms).isSome := by
  cases ms with
  | nil => simp [find]
  | cons p ms => simp only [List.length_cons, gt_iff_lt, Nat.zero_lt_succ, true_iff]
                 exact ⟨p.1, by simp [find]⟩

/-- Histories in which the member function `log` is used only for enabled modes. -/
def logLegal (l : Log) : Op → Prop
  | .rawLog m _ _ => (l.on m).isSome = true
  | _ => True

/-- **C47**: over every history of calls on a stream opened with a file name, `LOG(stream,mode)`
writes its message exactly when the mode is on, preceded by the stamp and the header of the mode,
and neither it nor the queries change which modes are on.  Missing: the member function `log` called
directly on a mode that is off (`C47_fails_raw_log`), and a header given when enabling a mode that
is already on is ignored (`C47_fails_new_header`). -/
theorem C47_history_partial (ops : List Op)
    (h : Legal logStep logLegal ⟨fun _ => none, true, true, []⟩ ops) :
    ∃ s', runOps step LogStream.new ops =
        some (s', (runSpec logStep ⟨fun _ => none, true, true, []⟩ ops).2) ∧
      s'.text = (runSpec logStep ⟨fun _ => none, true, true, []⟩ ops).1.text ∧
      ∀ m, s'.isModeEnabled m =
        ((runSpec logStep ⟨fun _ => none, true, true, []⟩ ops).1.on m).isSome := by
  suffices hstep : ∀ s l op, Rel s l → logLegal l op →
      ∃ s', (step s op).obs = some (s', (logStep l op).2) ∧ Rel s' (logStep l op).1 by
    obtain ⟨s', h1, h2⟩ := refines step logStep logLegal Rel hstep ops LogStream.new
      ⟨fun _ => none, true, true, []⟩ ⟨rfl, rfl, rfl, fun _ => rfl⟩ h
    exact ⟨s', h1, h2.2.2.1, fun m => by unfold isModeEnabled; rw [h2.2.2.2 m]⟩
  rintro s l op ⟨hh, hs, ht, hm⟩ hl
  have hlog : ∀ m st msg g, l.on m = some g →
      ∃ s', (do let s ← s.log m st; Outcome.ok (s.put msg)) = .ok s' ∧
        Rel s' { l with text := l.text ++ l.entry g st msg } := by
    intro m st msg g hg
    unfold LogStream.log
    rw [hs, hh]
    have hf : find m s.modes = some g := by rw [hm, hg]
    refine ⟨_, rfl, ?_⟩
    cases hst : l.stamp <;> cases hhd : l.header <;>
      simp [Rel, put, enableMode, isModeEnabled, hf, Log.entry, hst, hhd, ht, hh, hs, hm]
  cases op with
  | enable m g =>
    by_cases hon : (l.on m).isSome = true
    · refine ⟨s, ?_, ?_⟩
      · simp [step, Res.obs, logStep, enableMode, isModeEnabled, hm, hon]
      · simp only [logStep, hon, if_true]; exact ⟨hh, hs, ht, hm⟩
    · refine ⟨{ s with modes := s.modes ++ [(m, g)] }, ?_, ?_⟩
      · simp [step, Res.obs, logStep, enableMode, isModeEnabled, hm, hon]
      · simp only [logStep, hon, if_false]
        refine ⟨hh, hs, ht, fun k => ?_⟩
        simp only [find_append, hm]
        by_cases hk : k = m
        · subst hk
          have : l.on k = none := by simpa using hon
          simp [this]
        · simp [hk]
  | disable m =>
    refine ⟨s.disableMode m, rfl, hh, hs, ht, fun k => ?_⟩
    simp only [disableMode, find_filter, hm, logStep]
  | header b => exact ⟨_, rfl, rfl, hs, ht, hm⟩
  | stamp b => exact ⟨_, rfl, hh, rfl, ht, hm⟩
  | isOn m =>
    refine ⟨s, ?_, hh, hs, ht, hm⟩
    simp [step, Res.obs, logStep, isModeEnabled, hm]
  | anyOn =>
    refine ⟨s, ?_, hh, hs, ht, hm⟩
    have e := any_iff s.modes
    simp only [hm] at e
    simp only [step, Res.obs, logStep, isEnabled]
    congr 4
    exact decide_eq_decide.2 e
  | log m st msg =>
    cases hon : l.on m with
    | none =>
      refine ⟨s, ?_, ?_⟩
      · simp [step, LOG, isModeEnabled, hm, hon, ofOutcome, Res.obs, logStep]
      · simp only [logStep, hon]; exact ⟨hh, hs, ht, hm⟩
    | some g =>
      obtain ⟨s', h1, h2⟩ := hlog m st msg g hon
      refine ⟨s', ?_, ?_⟩
      · simp only [step, LOG, isModeEnabled, hm, hon, Option.isSome_some, Bool.not_true,
          Bool.false_eq_true, if_false, h1, ofOutcome, Res.obs, logStep]
      · simp only [logStep, hon]; exact h2
  | rawLog m st msg =>
    have hl : (l.on m).isSome = true := hl
    obtain ⟨g, hg⟩ := Option.isSome_iff_exists.1 hl
    obtain ⟨s', h1, h2⟩ := hlog m st msg g hg
    refine ⟨s', ?_, ?_⟩
    · simp only [step, h1, ofOutcome, Res.obs, logStep]
    · simp only [logStep, hg, Option.getD_some]; exact h2

/-- A history with a suppressed and a written entry. -/
example : (runOps step LogStream.new [.stamp false, .enable 3 "Err".toList, .log 4 [] "no".toList,
    .log 3 [] "yes".toList]).map (fun r => String.ofList r.1.text) = some "[Err] : yes" := by decide

/-- **C47, refuted** for the member function: `log(mode)` on a mode that is off writes, and turns
the mode on. -/
theorem C47_fails_raw_log :
    ∃ s, LogStream.new.log 7 "now".toList = .ok s ∧ LogStream.new.isModeEnabled 7 = false ∧
      s.isModeEnabled 7 = true ∧ s.text ≠ [] :=
  ⟨_, rfl, by decide, by decide, by decide⟩

/-- **C47, refuted** for headers: enabling a mode again with another header keeps the old one. -/
theorem C47_fails_new_header :
    (runOps step LogStream.new [.stamp false, .enable 3 "old".toList, .enable 3 "new".toList,
      .log 3 [] "x".toList]).map (fun r => String.ofList r.1.text) = some "[old] : x" := by decide

/-- **C47, refuted** for the default constructor: logging reads flags that were never set. -/
theorem C47_fails_default_constructor (m : Int) (h st msg : List Char) :
    (LogStream.default.enableMode m h).LOG m st msg = .ub := by
  simp [LOG, LogStream.log, enableMode, isModeEnabled, LogStream.default, find]

end Ecl.Props
