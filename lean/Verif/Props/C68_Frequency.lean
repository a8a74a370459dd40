import Verif.Lemmas.Time

/-!
# C68: frequency monitor

A window lasts from one closing `analyse()` (or the construction) to the next.
-/
set_option autoImplicit false
set_option linter.unusedSimpArgs false

namespace Ecl.Props
open Ecl.Time

/-- Clock readings: valid and representable. -/
def Reading (t : Ts) : Prop := t.Valid ∧ t.sec ≤ longMax

/-- The clock readings of the updates in a sequence of operations. -/
def updateTimes : List FreqOp → List Ts
  | [] => []
  | .update t :: ops => t :: updateTimes ops
  | .analyse _ :: ops => updateTimes ops

/-- The operations stay inside the window that began at reading `start`: an `analyse()` in between
comes too early to close it. -/
def Inside (start : Ts) (period : Ts) (ops : List FreqOp) : Prop :=
  ∀ op ∈ ops, match op with
    | .update t => Reading t
    | .analyse now => Reading now ∧ now.total - start.total ≤ period.total

/-- A monitor at the start of a window. -/
def Fresh (f : Freq) : Prop :=
  f.count = 0 ∧ f.minI = ⟨100000, 0⟩ ∧ f.maxI = ⟨0, 0⟩ ∧ Reading f.lastAnalysed ∧
    Reading f.lastIncoming ∧ f.period.Norm

private theorem freq_inside (m : Mode) : ∀ (ops : List FreqOp) (f : Freq), Reading f.lastAnalysed →
    Reading f.lastIncoming → f.period.Norm → f.minI.Norm → f.maxI.Norm →
    f.count + ops.length < 4294967296 → Inside f.lastAnalysed f.period ops →
    ∃ f', freqRun m f ops = .ok f' ∧ f'.lastAnalysed = f.lastAnalysed ∧ f'.period = f.period ∧
      Reading f'.lastIncoming ∧ f'.count = f.count + (updateTimes ops).length ∧
      f'.minI.Norm ∧ f'.maxI.Norm ∧
      (f'.lastIncoming.total = (((updateTimes ops).map Ts.total).getLast?.getD f.lastIncoming.total)) ∧
      f'.minI.total ≤ f.minI.total ∧ f.maxI.total ≤ f'.maxI.total ∧
      (∀ d ∈ diffs f.lastIncoming.total ((updateTimes ops).map Ts.total),
        f'.minI.total ≤ d ∧ d ≤ f'.maxI.total) ∧
      (f'.minI.total = f.minI.total ∨
        f'.minI.total ∈ diffs f.lastIncoming.total ((updateTimes ops).map Ts.total)) ∧
      (f'.maxI.total = f.maxI.total ∨
        f'.maxI.total ∈ diffs f.lastIncoming.total ((updateTimes ops).map Ts.total)) := by
  intro ops
  induction ops with
  | nil => intro f _ h2 _ h4 h5 _ _; exact ⟨f, rfl, rfl, rfl, h2, rfl, h4, h5, rfl, le_rfl, le_rfl,
      by simp [updateTimes, diffs], .inl rfl, .inl rfl⟩
  | cons op ops ih =>
    intro f ha hi hp hmin hmax hc hin
    simp only [List.length_cons] at hc
    have hin' : Inside f.lastAnalysed f.period ops := fun o ho => hin o (by simp [ho])
    cases op with
    | analyse now =>
      obtain ⟨hn, hl⟩ := hin (.analyse now) (by simp)
      obtain ⟨r, h1, h2, h3⟩ := sub_clock m hn.1 ha.1 hn.2 ha.2
      have hg : gt r f.period = false := by
        rw [Bool.eq_false_iff, Ne, gt_iff h2 hp]; omega
      obtain ⟨f', g1, g2⟩ := ih f ha hi hp hmin hmax (by omega) hin'
      refine ⟨f', ?_, g2⟩
      simp only [freqRun, freqStep, freqAnalyse, h1, Outcome.bind_ok, hg, Bool.false_eq_true,
        if_false]
      exact g1
    | update t =>
      have ht := hin (.update t) (by simp)
      obtain ⟨d, h1, h2, h3⟩ := sub_clock m ht.1 hi.1 ht.2 hi.2
      have hlt := lt_iff h2 hmin
      have hgt := gt_iff h2 hmax
      let f1 : Freq := { f with
        connected := true
        count := (f.count + 1) % 4294967296
        minI := if lt d f.minI then d else f.minI
        maxI := if gt d f.maxI then d else f.maxI
        lastIncoming := t }
      have hstep : freqStep m f (.update t) = .ok f1 := by
        simp only [freqStep, freqUpdate, h1, Outcome.bind_ok]; rfl
      have hcnt : f1.count = f.count + 1 := Nat.mod_eq_of_lt (by omega)
      have hmin1 : f1.minI.Norm ∧ f1.minI.total ≤ f.minI.total ∧ f1.minI.total ≤ d.total ∧
          (f1.minI.total = f.minI.total ∨ f1.minI.total = d.total) := by
        show (if lt d f.minI then d else f.minI).Norm ∧ _ ≤ _ ∧ _ ≤ _ ∧ _
        cases hc : lt d f.minI with
        | true => have := hlt.1 hc; simp [f1, hc, h2]; omega
        | false =>
          have : ¬ d.total < f.minI.total := fun h => by rw [hlt.2 h] at hc; cases hc
          simp [f1, hc, hmin]; omega
      have hmax1 : f1.maxI.Norm ∧ f.maxI.total ≤ f1.maxI.total ∧ d.total ≤ f1.maxI.total ∧
          (f1.maxI.total = f.maxI.total ∨ f1.maxI.total = d.total) := by
        show (if gt d f.maxI then d else f.maxI).Norm ∧ _ ≤ _ ∧ _ ≤ _ ∧ _
        cases hc : gt d f.maxI with
        | true => have := hgt.1 hc; simp [f1, hc, h2]; omega
        | false =>
          have : ¬ f.maxI.total < d.total := fun h => by rw [hgt.2 h] at hc; cases hc
          simp [f1, hc, hmax]; omega
      obtain ⟨f', g1, g2, g3, g4, g5, g6, g7, g8, g9, g10, g11, g12, g13⟩ :=
        ih f1 ha ht hp hmin1.1 hmax1.1 (by omega) hin'
      have hd : diffs f.lastIncoming.total ((updateTimes (.update t :: ops)).map Ts.total)
          = d.total :: diffs f1.lastIncoming.total ((updateTimes ops).map Ts.total) := by
        simp only [updateTimes, List.map_cons, diffs, h3]; rfl
      refine ⟨f', ?_, g2, g3, g4, ?_, g6, g7, ?_, ?_, ?_, ?_, ?_, ?_⟩
      · simp only [freqRun, hstep, Outcome.bind_ok]; exact g1
      · rw [g5, hcnt]; simp only [updateTimes, List.length_cons]; omega
      · rw [g8]; simp only [updateTimes, List.map_cons, List.getLast?_cons]; rfl
      · omega
      · omega
      · rw [hd]
        intro x hx
        rcases List.mem_cons.1 hx with rfl | hx
        · omega
        · exact g11 x hx
      · rw [hd]
        rcases g12 with e | e
        · rcases hmin1.2.2.2 with e' | e'
          · left; omega
          · right; rw [e, e']; simp
        · right; exact List.mem_cons_of_mem _ e
      · rw [hd]
        rcases g13 with e | e
        · rcases hmax1.2.2.2 with e' | e'
          · left; omega
          · right; rw [e, e']; simp
        · right; exact List.mem_cons_of_mem _ e

/-- **C68**: from the start of a window, after any sequence of updates (and early analyses), the
analysis that closes the window reports the number of updates over the window's length, whether
there were any, and minimum and maximum intervals between consecutive events that bound every
interval of the window; they are attained unless all intervals are beyond the initial guesses
(100000 s and 0 s).  The monitor is then at the start of the next window. -/
theorem C68_window (m : Mode) (f : Freq) (ops : List FreqOp) (now : Ts) (hf : Fresh f)
    (hops : Inside f.lastAnalysed f.period ops) (hlen : ops.length < 4294967296)
    (hnow : Reading now) (hclose : f.period.total < now.total - f.lastAnalysed.total) :
    ∃ f' len, freqRun m f (ops ++ [.analyse now]) = .ok f' ∧
      len.total = now.total - f.lastAnalysed.total ∧
      f'.hz = some ((updateTimes ops).length, len) ∧
      (f'.connected = true ↔ updateTimes ops ≠ []) ∧
      (∀ d ∈ diffs f.lastIncoming.total ((updateTimes ops).map Ts.total),
        f'.repMin.total ≤ d ∧ d ≤ f'.repMax.total) ∧
      ((∃ d ∈ diffs f.lastIncoming.total ((updateTimes ops).map Ts.total), d < 100000000000000) →
        f'.repMin.total ∈ diffs f.lastIncoming.total ((updateTimes ops).map Ts.total)) ∧
      ((∃ d ∈ diffs f.lastIncoming.total ((updateTimes ops).map Ts.total), 0 < d) →
        f'.repMax.total ∈ diffs f.lastIncoming.total ((updateTimes ops).map Ts.total)) ∧
      Fresh f' ∧ f'.lastAnalysed = now := by
  obtain ⟨c0, c1, c2, c3, c4, c5⟩ := hf
  obtain ⟨f1, g1, g2, g3, g4, g5, g6, g7, g8, g9, g10, g11, g12, g13⟩ :=
    freq_inside m ops f c3 c4 c5 (by rw [c1]; decide) (by rw [c2]; decide) (by omega) hops
  obtain ⟨r, h1, h2, h3⟩ := sub_clock m hnow.1 c3.1 hnow.2 c3.2
  have hg : gt r f.period = true := by rw [gt_iff h2 c5]; omega
  have happ : freqRun m f (ops ++ [.analyse now]) = freqAnalyse m f1 now := by
    have : ∀ (ops : List FreqOp) (g g' : Freq), freqRun m g ops = .ok g' →
        freqRun m g (ops ++ [.analyse now]) = freqAnalyse m g' now := by
      intro ops
      induction ops with
      | nil =>
        intro g g' h; cases h
        simp only [List.nil_append, freqRun, freqStep]
        cases freqAnalyse m g now <;> rfl
      | cons o os ih =>
        intro g g' h
        simp only [freqRun, bind_eq_ok] at h
        obtain ⟨g2, e1, e2⟩ := h
        simp only [List.cons_append, freqRun, e1, Outcome.bind_ok]
        exact ih _ _ e2
    exact this ops f f1 g1
  have hcount : f1.count = (updateTimes ops).length := by rw [g5, c0]; simp
  rw [happ]
  unfold freqAnalyse
  rw [g2, h1, Outcome.bind_ok, g3, hg]
  simp only [if_true]
  by_cases hz : f1.count = 0
  · have hnil : updateTimes ops = [] := List.length_eq_zero_iff.1 (by omega)
    rw [if_pos hz]
    refine ⟨_, r, rfl, h3, by simp [hnil], by simp [hnil], by simp [hnil, diffs],
      by simp [hnil, diffs], by simp [hnil, diffs], ?_, rfl⟩
    have e1 : f1.minI.total = f.minI.total := by
      rcases g12 with e | e
      · exact e
      · simp [hnil, diffs] at e
    have e2 : f1.maxI.total = f.maxI.total := by
      rcases g13 with e | e
      · exact e
      · simp [hnil, diffs] at e
    refine ⟨hz, ?_, ?_, hnow, g4, by show f.period.Norm; exact c5⟩
    · show f1.minI = ⟨100000, 0⟩
      generalize f1.minI = a at *
      obtain ⟨as, an⟩ := a
      rw [c1] at e1
      simp only [Ts.total, Ts.Norm, Ts.mk.injEq] at *
      omega
    · show f1.maxI = ⟨0, 0⟩
      generalize f1.maxI = a at *
      obtain ⟨as, an⟩ := a
      rw [c2] at e2
      simp only [Ts.total, Ts.Norm, Ts.mk.injEq] at *
      omega
  · rw [if_neg hz]
    have hne : updateTimes ops ≠ [] := by
      intro h; rw [h] at hcount; exact hz hcount
    refine ⟨_, r, rfl, h3, by rw [hcount], by simp [hne], g11, ?_, ?_,
      ⟨rfl, rfl, rfl, hnow, g4, by show f.period.Norm; exact c5⟩, rfl⟩
    · rintro ⟨d, hd, hlt⟩
      rcases g12 with e | e
      · exfalso
        have := (g11 d hd).1
        rw [e, c1] at this
        simp only [Ts.total] at this
        omega
      · exact e
    · rintro ⟨d, hd, hlt⟩
      rcases g13 with e | e
      · exfalso
        have := (g11 d hd).2
        rw [e, c2] at this
        simp only [Ts.total] at this
        omega
      · exact e

/-- A new monitor is at the start of a window. -/
theorem C68_constructor (period t₁ t₂ : Ts) (hp : period.Norm) (h1 : Reading t₁) (h2 : Reading t₂) :
    Fresh (freqNew period t₁ t₂) := ⟨rfl, rfl, rfl, h1, h2, hp⟩

/-- **C68, refuted for monitors that do not use the realtime clock**: the constructor then reads the
clock of `TimeStamp()` but `analyse()` reads the realtime clock, so the first report divides by the
difference of two clocks.  Here the realtime clock is 10^9 s ahead of the other one, the true window
is 3 s with two events, and the reported frequency is 2 per 1000000003 s. -/
theorem C68_fails_mixed_clocks (m : Mode) :
    ∃ f', freqRun m (freqNew ⟨2, 0⟩ ⟨10, 0⟩ ⟨10, 0⟩)
      [.update ⟨11, 0⟩, .update ⟨12, 0⟩, .analyse ⟨1000000000 + 13, 0⟩] = .ok f' ∧
      f'.hz = some (2, ⟨1000000003, 0⟩) := by
  cases m <;> exact ⟨_, rfl, by decide⟩

example : ∃ f', freqRun .debug (freqNew ⟨2, 0⟩ ⟨10, 0⟩ ⟨10, 0⟩)
    [.update ⟨11, 0⟩, .analyse ⟨11, 5⟩, .update ⟨11, 400⟩, .analyse ⟨13, 0⟩] = .ok f' ∧
    f'.hz = some (2, ⟨3, 0⟩) ∧ f'.repMin = ⟨0, 400⟩ ∧ f'.repMax = ⟨1, 0⟩ :=
  ⟨_, rfl, by decide, by decide, by decide⟩
example : Reading ⟨11, 400⟩ := by unfold Reading; decide

/-- As long as no event came, nothing is reported as connected and no frequency other than zero. -/
theorem C68_silent (m : Mode) (period t₁ t₂ : Ts) (ts : List Ts) (f' : Freq)
    (h : freqRun m (freqNew period t₁ t₂) (ts.map .analyse) = .ok f') :
    f'.connected = false ∧ (f'.hz = none ∨ ∃ d, f'.hz = some (0, d)) := by
  have key : ∀ (ts : List Ts) (f : Freq), f.connected = false → f.count = 0 →
      (f.hz = none ∨ ∃ d, f.hz = some (0, d)) → freqRun m f (ts.map .analyse) = .ok f' →
      f'.connected = false ∧ (f'.hz = none ∨ ∃ d, f'.hz = some (0, d)) := by
    intro ts
    induction ts with
    | nil =>
      intro f h1 _ h3 h
      simp only [List.map_nil, freqRun, Outcome.ok.injEq] at h
      rw [← h]; exact ⟨h1, h3⟩
    | cons t ts ih =>
      intro f h1 h2 h3 h
      simp only [List.map_cons, freqRun, freqStep, freqAnalyse] at h
      cases hs : sub m t f.lastAnalysed with
      | throw e => rw [hs] at h; cases h
      | ub => rw [hs] at h; cases h
      | ok d =>
        rw [hs] at h
        simp only [Outcome.bind_ok, h2, if_true] at h
        split at h
        · exact ih _ rfl rfl (.inr ⟨d, rfl⟩) h
        · exact ih f h1 h2 h3 h
  exact key ts _ rfl rfl (.inl rfl) h

example : ∃ f', freqRun .debug (freqNew ⟨2, 0⟩ ⟨10, 0⟩ ⟨10, 0⟩) ([⟨11, 0⟩, ⟨13, 0⟩].map .analyse) = .ok f' ∧
    f'.hz = some (0, ⟨3, 0⟩) := ⟨_, rfl, rfl⟩

end Ecl.Props
