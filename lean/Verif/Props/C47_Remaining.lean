import Verif.Spec.LogAll

/-!
# C47: every history of a log stream, decided
-/
set_option autoImplicit false
set_option linter.unusedSimpArgs false

namespace Ecl.Props
open Ecl Ecl.LogStream
open Ecl.Spec.Logs (named unset)

namespace C47

theorem find_filter (ms : List (Int × List Char)) (m k : Int) :
    find k (ms.filter fun p => p.1 ≠ m) = if k = m then none else find k ms := by
  induction ms with
  | nil => simp [find]
  | cons p ms ih =>
    obtain ⟨a, h⟩ := p
    by_cases ha : a = m
    · subst ha
      simp only [ne_eq, not_true_eq_false, decide_false, List.filter_cons, Bool.false_eq_true,
        if_false, find]
      rw [show (List.filter (fun p => decide ¬ p.1 = a) ms) = ms.filter fun p => p.1 ≠ a from rfl, ih]
      by_cases hk : k = a
      · simp [hk]
      · rw [if_neg hk, if_neg hk, if_neg (Ne.symm hk)]
    · simp only [ne_eq, List.filter_cons, ha, not_false_eq_true, decide_true, if_true, find]
      rw [show (List.filter (fun p => decide ¬ p.1 = m) ms) = ms.filter fun p => p.1 ≠ m from rfl, ih]
      by_cases hk : k = m
      · subst hk; simp [ha]
      · simp [hk]

theorem find_append (ms : List (Int × List Char)) (m k : Int) (h : List Char) :
    find k (ms ++ [(m, h)]) = (find k ms).or (if k = m then some h else none) := by
  induction ms with
  | nil => by_cases hk : k = m <;> simp [find, hk, Ne.symm]
  | cons p ms ih =>
    obtain ⟨a, g⟩ := p
    by_cases ha : a = k <;> simp [find, ha, ih]

theorem any_iff (ms : List (Int × List Char)) : ms.length > 0 ↔ ∃ m, (find m ms).isSome := by
  cases ms with
  | nil => simp [find]
  | cons p ms => simp only [List.length_cons, gt_iff_lt, Nat.zero_lt_succ, true_iff]
                 exact ⟨p.1, by simp [find]⟩

def Rel (s : LogStream) (l : Spec.Logs.Log) : Prop :=
  s.writeHeader = l.header ∧ s.writeStamp = l.stamp ∧ s.text = l.text ∧
    ∀ k, find k s.modes = l.on k

theorem enable_find (s : LogStream) (m : Int) (h : List Char) (k : Int) :
    find k (s.enableMode m h).modes = if k = m then some ((find m s.modes).getD h) else find k s.modes := by
  unfold enableMode isModeEnabled
  cases hf : find m s.modes with
  | some g => by_cases hk : k = m <;> simp [hk, hf]
  | none => by_cases hk : k = m <;> simp [find_append, hk, hf]

theorem write_rel (s : LogStream) (l : Spec.Logs.Log) (h : Rel s l) (m : Int) (st msg : List Char) :
    match l.write m st msg with
    | none => (do let s ← s.log m st; Outcome.ok (s.put msg)) = .ub
    | some l' => ∃ s', (do let s ← s.log m st; Outcome.ok (s.put msg)) = .ok s' ∧ Rel s' l' := by
  obtain ⟨hh, hs, ht, hm⟩ := h
  obtain ⟨on, hd, sp, tx⟩ := l
  simp only at hh hs ht hm
  unfold Spec.Logs.Log.write LogStream.log
  rw [hs, hh]
  rcases hd with _ | _ | _ <;> rcases sp with _ | _ | _ <;> simp only
  all_goals first
    | rfl
    | (refine ⟨_, rfl, ?_⟩
       simp [Rel, put, hh, hs, ht, hm]
       done)
    | (refine ⟨_, rfl, ?_, ?_, ?_, ?_⟩
       · simp [put, enableMode, hh]; split <;> simp [hh]
       · simp [put, enableMode, hs]; split <;> simp [hs]
       · have e := enable_find s m [] m
         simp only [put, enableMode, isModeEnabled] at e ⊢
         cases hf : find m s.modes <;> simp [hf, find_append, ht, ← hm, put]
       · intro k
         cases hf : find m s.modes <;> by_cases hk : k = m <;>
           simp [put, enableMode, isModeEnabled, hf, find_append, hk, ← hm])

theorem step_rel (s : LogStream) (l : Spec.Logs.Log) (h : Rel s l) (op : Op) :
    match l.next op with
    | none => step s op = .ub
    | some (l', o) => ∃ s', (step s op).obs = some (s', o) ∧ Rel s' l' := by
  have hr := h
  obtain ⟨hh, hs, ht, hm⟩ := h
  cases op with
  | enable m g =>
    refine ⟨s.enableMode m g, rfl, ?_, ?_, ?_, ?_⟩
    · simp only [enableMode]; split <;> simp [hh]
    · simp only [enableMode]; split <;> simp [hs]
    · simp only [enableMode]; split <;> simp [ht]
    · intro k; rw [enable_find, hm, hm]
  | disable m =>
    refine ⟨s.disableMode m, rfl, hh, hs, ht, fun k => ?_⟩
    simp only [disableMode, find_filter, hm]
  | header b => exact ⟨_, rfl, rfl, hs, ht, hm⟩
  | stamp b => exact ⟨_, rfl, hh, rfl, ht, hm⟩
  | isOn m =>
    refine ⟨s, ?_, hh, hs, ht, hm⟩
    simp [step, Res.obs, isModeEnabled, hm]
  | anyOn =>
    refine ⟨s, ?_, hh, hs, ht, hm⟩
    have e := any_iff s.modes
    simp only [hm] at e
    simp [step, Res.obs, isEnabled, e]
  | log m st msg =>
    have hw := write_rel s l hr m st msg
    simp only [Spec.Logs.Log.next]
    cases hon : l.on m with
    | none => simp only [Option.isSome_none, Bool.false_eq_true, if_false]
              exact ⟨s, by simp [step, LOG, isModeEnabled, hm, hon, ofOutcome, Res.obs], hr⟩
    | some g =>
      simp only [Option.isSome_some, if_true]
      have e : s.LOG m st msg = (do let s ← s.log m st; Outcome.ok (s.put msg)) := by
        simp [LOG, isModeEnabled, hm, hon]
      cases hl : l.write m st msg with
      | none => simp only [hl] at hw; simp [step, e, hw, ofOutcome]
      | some l' =>
        simp only [hl] at hw
        obtain ⟨s', h1, h2⟩ := hw
        exact ⟨s', by simp [step, e, h1, ofOutcome, Res.obs], h2⟩
  | rawLog m st msg =>
    have hw := write_rel s l hr m st msg
    simp only [Spec.Logs.Log.next]
    cases hl : l.write m st msg with
    | none => simp only [hl] at hw; simp [step, hw, ofOutcome]
    | some l' =>
      simp only [hl] at hw
      obtain ⟨s', h1, h2⟩ := hw
      exact ⟨s', by simp [step, h1, ofOutcome, Res.obs], h2⟩

theorem run_rel (ops : List Op) : ∀ (s : LogStream) (l : Spec.Logs.Log), Rel s l →
    match l.all ops with
    | none => runOps step s ops = none
    | some (l', outs) => ∃ s', runOps step s ops = some (s', outs) ∧ Rel s' l' := by
  induction ops with
  | nil => intro s l h; exact ⟨s, rfl, h⟩
  | cons op ops ih =>
    intro s l h
    have hs := step_rel s l h op
    simp only [Spec.Logs.Log.all]
    cases hn : l.next op with
    | none => simp only [hn] at hs; simp [runOps, hs, Res.obs]
    | some r =>
      obtain ⟨l1, o⟩ := r
      simp only [hn] at hs
      obtain ⟨s1, h1, h2⟩ := hs
      have hi := ih s1 l1 h2
      have hc := runOps_cons step s op ops
      rw [hc, h1]
      simp only [Option.bind_some]
      cases hal : l1.all ops with
      | none => simp only [hal] at hi; simp [hal, hi]
      | some r =>
        obtain ⟨l2, outs⟩ := r
        simp only [hal] at hi
        obtain ⟨s2, h3, h4⟩ := hi
        simp only [hal, Option.map_some]
        exact ⟨s2, by simp [h3], h4⟩

end C47

/-- **C47**, complete decision: for every history of calls, of a stream opened with a file name and of
a default constructed one, whether it is undefined - an entry is written while one of the two
settings has never been given - and otherwise exactly what has been written, what every call returned
and which modes are on. -/
theorem C47_decides (ops : List Op) (l : Spec.Logs.Log) (s : LogStream)
    (hs : l = named ∧ s = LogStream.new ∨ l = unset ∧ s = LogStream.default) :
    match l.all ops with
    | none => runOps step s ops = none
    | some (l', outs) => ∃ s', runOps step s ops = some (s', outs) ∧ s'.text = l'.text ∧
        ∀ m, s'.isModeEnabled m = (l'.on m).isSome := by
  have hr : C47.Rel s l := by
    rcases hs with ⟨rfl, rfl⟩ | ⟨rfl, rfl⟩ <;> exact ⟨rfl, rfl, rfl, fun _ => rfl⟩
  have h := C47.run_rel ops s l hr
  cases hal : l.all ops with
  | none => simpa [hal] using h
  | some r =>
    obtain ⟨l', outs⟩ := r
    simp only [hal] at h
    obtain ⟨s', h1, h2⟩ := h
    exact ⟨s', h1, h2.2.2.1, fun m => by unfold isModeEnabled; rw [h2.2.2.2 m]⟩

/-- Non-vacuity: a history with a raw `log`, after which the mode is on; and an undefined one. -/
example : ∃ l outs, named.all [.rawLog 2 "t".toList "x".toList, .isOn 2] = some (l, outs) ∧
    outs = [.ok .unit, .ok (.bool true)] ∧ l.text = "t [] : x".toList := by
  refine ⟨_, _, rfl, ?_, rfl⟩
  simp [named]
example : unset.all [.stamp false, .rawLog 2 [] []] = none := rfl

end Ecl.Props
