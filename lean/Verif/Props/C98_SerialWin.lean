import Verif.Model.SerialWin
import Verif.Props.C96_ThreadWin

/-!
# C98: serial ports on Windows
-/
set_option autoImplicit false
set_option linter.unusedSimpArgs false

namespace Ecl.Props
open Ecl Ecl.SerialWin
variable {α : Type _}

private theorem run_inv {m : Mode} {f : Flag} (P : State α → Prop) (ok : Op α → Prop)
    (h : ∀ s op s', P s → ok op →
      ((∃ a, SerialWin.step m f s op = some (.ok s' a)) ∨ ∃ e, SerialWin.step m f s op = some (.throw s' e)) → P s') :
    ∀ (ops : List (Op α)) (s s' : State α) (rs : List (Obs (Ans α))), (∀ op ∈ ops, ok op) → P s →
      SerialWin.run m f s ops = some (s', rs) → P s' := by
  intro ops
  induction ops with
  | nil => intro s s' rs _ hp hr; cases hr; exact hp
  | cons op ops ih =>
    intro s s' rs ho hp hr
    rw [SerialWin.run] at hr
    have hop := ho op (by simp)
    have hops : ∀ op ∈ ops, ok op := fun o h => ho o (by simp [h])
    cases hs : SerialWin.step m f s op with
    | none => rw [hs] at hr; cases hr
    | some r =>
      cases r with
      | ok s₁ a =>
        simp only [hs] at hr
        cases hq : SerialWin.run m f s₁ ops with
        | none => rw [hq] at hr; cases hr
        | some q =>
          rw [hq] at hr
          obtain ⟨q1, q2⟩ := q
          cases hr
          exact ih s₁ _ _ hops (h s op s₁ hp hop (.inl ⟨a, hs⟩)) hq
      | throw s₁ e =>
        simp only [hs] at hr
        cases hq : SerialWin.run m f s₁ ops with
        | none => rw [hq] at hr; cases hr
        | some q =>
          rw [hq] at hr
          obtain ⟨q1, q2⟩ := q
          cases hr
          exact ih s₁ _ _ hops (h s op s₁ hp hop (.inr ⟨e, hs⟩)) hq
      | ub => simp only [hs] at hr; cases hr

/-- The constructor that is given a port reads a member that it has not set. -/
theorem C98_fails_constructor (m : Mode) (f : Flag) (e : SerialWin.Env) :
    SerialWin.step m f (State.raw : State α) (.openPort e) = some .ub := rfl

/-- In debug builds no port can be opened: whatever is called and happens, the object never is open. -/
theorem C98_fails_debug (f : Flag) (ops : List (Op α)) (s : State α) (rs : List (Obs (Ans α)))
    (h : SerialWin.run .debug f State.new ops = some (s, rs)) : s.isOpen = some false := by
  refine (run_inv (m := .debug) (f := f) (fun s => s.isOpen = some false ∧ s.joining = none) (fun _ => True) ?_ ops _ s rs
    (fun _ _ => trivial) ⟨rfl, rfl⟩ h).1
  rintro s op s' ⟨h1, h2⟩ - hst
  cases op with
  | openPort e =>
    simp only [SerialWin.step, h1, h2, doOpen] at hst
    rcases hst with ⟨a, hst⟩ | ⟨a, hst⟩ <;> (split at hst <;> try split at hst) <;> (try split at hst) <;> (try split at hst) <;>
      (try split at hst) <;> simp at hst <;> (try (obtain ⟨rfl, -⟩ := hst; first | exact ⟨h1, h2⟩ | exact ⟨rfl, rfl⟩))
  | close =>
    simp only [SerialWin.step, h1, h2] at hst
    rcases hst with ⟨a, hst⟩ | ⟨a, hst⟩ <;> simp at hst
    obtain ⟨rfl, -⟩ := hst
    exact ⟨h1, h2⟩
  | joined => simp [SerialWin.step, h2] at hst
  | isOpen =>
    simp only [SerialWin.step, h1, h2] at hst
    rcases hst with ⟨a, hst⟩ | ⟨a, hst⟩ <;> simp at hst
    obtain ⟨rfl, -⟩ := hst
    exact ⟨h1, h2⟩
  | read n =>
    simp only [SerialWin.step, h1, h2] at hst
    rcases hst with ⟨a, hst⟩ | ⟨a, hst⟩ <;> (split at hst <;> try split at hst) <;> simp at hst <;>
      (try (obtain ⟨rfl, -⟩ := hst; first | exact ⟨h1, h2⟩ | exact ⟨rfl, rfl⟩))
  | wake =>
    simp only [SerialWin.step] at hst
    rcases hst with ⟨a, hst⟩ | ⟨a, hst⟩ <;> (split at hst <;> try split at hst) <;> simp at hst <;>
      (try (obtain ⟨rfl, -⟩ := hst; first | exact ⟨h1, h2⟩ | exact ⟨rfl, h2⟩))
  | fail =>
    simp only [SerialWin.step] at hst
    rcases hst with ⟨a, hst⟩ | ⟨a, hst⟩ <;> split at hst <;> simp at hst
    obtain ⟨rfl, -⟩ := hst
    exact ⟨rfl, h2⟩
  | recv bs =>
    simp only [SerialWin.step] at hst
    rcases hst with ⟨a, hst⟩ | ⟨a, hst⟩ <;> split at hst <;> simp at hst <;>
      (try (obtain ⟨rfl, -⟩ := hst; exact ⟨h1, h2⟩))

example (f : Flag) : SerialWin.run .debug f (State.new : State Nat)
    [.openPort ⟨true, true, true, true⟩, .isOpen, .openPort ⟨true, true, true, true⟩] =
    some (⟨some false, true, none, .waiting, none, [0], 1, [], false⟩, [.error f, .ok (.bool false), .error .openError]) := rfl

/-- Threads can be made. -/
private def Threads : Op α → Prop
  | .openPort e => e.thread = true
  | _ => True

private structure Inv (s : State α) : Prop where
  one : (s.handles = [] ∧ s.next = 0 ∧ s.fd = none) ∨ (s.handles = [0] ∧ s.next = 1)
  opened : s.isOpen = some true → s.evt = .waiting
  known : s.isOpen ≠ none
  joins : s.joining.isSome → s.evt = .waiting ∨ s.fd = none
  env : ∀ e, s.joining = some (some e) → e.thread = true
  halt : s.joining.isSome → s.isRun = false
  port : s.evt = .waiting → s.handles = [0]

private theorem Inv.doOpen {f : Flag} {s s' : State α} {e : SerialWin.Env} (h : Inv s) (hj : s.joining = none)
    (ho : s.isOpen = some false) (ht : e.thread = true)
    (hst : (∃ a, SerialWin.doOpen .release f s e = .ok s' a) ∨ ∃ g, SerialWin.doOpen .release f s e = .throw s' g) : Inv s' := by
  obtain ⟨h1, h2, h3, h4, h5, h6, h7⟩ := h
  unfold SerialWin.doOpen at hst
  split at hst
  · rcases hst with ⟨a, hst⟩ | ⟨a, hst⟩ <;> cases hst
    refine ⟨?_, h2, h3, fun _ => .inr rfl, h5, h6, h7⟩
    rcases h1 with ⟨a, b, -⟩ | ⟨a, b⟩
    · exact .inl ⟨a, b, rfl⟩
    · exact .inr ⟨a, b⟩
  · split at hst
    · rename_i hne
      rcases hst with ⟨a, hst⟩ | ⟨a, hst⟩ <;> cases hst
      refine ⟨?_, h2, h3, fun _ => .inr rfl, h5, h6, h7⟩
      rcases h1 with ⟨a, b, -⟩ | ⟨a, b⟩
      · exact absurd a hne
      · exact .inr ⟨a, b⟩
    · rename_i hne
      have hn : s.next = 0 := by
        rcases h1 with ⟨a, b, -⟩ | ⟨a, b⟩
        · exact b
        · exact absurd (by rw [a]; simp) hne
      have hc : ∀ c : Option (Option SerialWin.Env), s.joining = some c → False := by simp [hj]
      split at hst
      · rcases hst with ⟨a, hst⟩ | ⟨a, hst⟩ <;> cases hst
        exact ⟨.inr ⟨by simp [hn], by simp [hn]⟩, by simp [ho], h3, by simp [hj], by simp [hj], by simp [hj], by simp [hn]⟩
      · split at hst
        · rcases hst with ⟨a, hst⟩ | ⟨a, hst⟩ <;> cases hst
          exact ⟨.inr ⟨by simp [hn], by simp [hn]⟩, by simp [ho], h3, by simp [hj], by simp [hj], by simp [hj], by simp [hn]⟩
        · rcases hst with ⟨a, hst⟩ | ⟨a, hst⟩ <;> cases hst
          exact ⟨.inr ⟨by simp [hn], by simp [hn]⟩, by simp [ht], by simp, by simp [hj], by simp [hj], by simp [hj], by simp [hn]⟩

private theorem Inv.step {f : Flag} {s s' : State α} {op : Op α} (h : Inv s) (ht : Threads op)
    (hst : (∃ a, SerialWin.step .release f s op = some (.ok s' a)) ∨ ∃ e, SerialWin.step .release f s op = some (.throw s' e)) :
    Inv s' := by
  have h0 := h
  obtain ⟨h1, h2, h3, h4, h5, h6, h7⟩ := h
  cases op with
  | openPort e =>
    simp only [SerialWin.step] at hst
    cases hj : s.joining with
    | some c => simp [hj] at hst
    | none =>
      simp only [hj, Option.isSome_none, Bool.false_eq_true, if_false] at hst
      cases ho : s.isOpen with
      | none => exact absurd ho h3
      | some b =>
        cases b with
        | true =>
          simp only [ho] at hst
          rcases hst with ⟨a, hst⟩ | ⟨a, hst⟩ <;> cases hst
          refine ⟨h1, fun _ => h2 ho, by simp, fun _ => .inl (h2 ho), ?_, fun _ => rfl, h7⟩
          intro e' he'
          cases he'
          exact ht
        | false =>
          simp only [ho, Option.some.injEq] at hst
          exact h0.doOpen hj ho ht hst
  | close =>
    simp only [SerialWin.step] at hst
    cases hj : s.joining with
    | some c => simp [hj] at hst
    | none =>
      simp only [hj, Option.isSome_none, Bool.false_eq_true, if_false] at hst
      cases ho : s.isOpen with
      | none => exact absurd ho h3
      | some b =>
        cases b with
        | true =>
          simp only [ho] at hst
          rcases hst with ⟨a, hst⟩ | ⟨a, hst⟩ <;> cases hst
          refine ⟨h1, fun _ => h2 ho, by simp, fun _ => .inl (h2 ho), ?_, fun _ => rfl, h7⟩
          intro e' he'
          cases he'
        | false =>
          simp only [ho] at hst
          rcases hst with ⟨a, hst⟩ | ⟨a, hst⟩ <;> cases hst
          exact h0
  | joined =>
    simp only [SerialWin.step] at hst
    cases hj : s.joining with
    | none => simp [hj] at hst
    | some c =>
      simp only [hj] at hst
      split at hst
      · simp at hst
      · rename_i hw
        have hfd : s.fd = none := by
          rcases h4 (by simp [hj]) with a | a
          · exact absurd a hw
          · exact a
        have hi : Inv (endClose s) := by
          simp only [endClose, hfd]
          refine ⟨?_, by simp, by simp, by simp, by simp, by simp, by simp⟩
          rcases h1 with ⟨a, b, -⟩ | ⟨a, b⟩
          · exact .inl ⟨a, b, rfl⟩
          · exact .inr ⟨a, b⟩
        cases c with
        | none =>
          simp only at hst
          rcases hst with ⟨a, hst⟩ | ⟨a, hst⟩ <;> cases hst
          exact hi
        | some e =>
          simp only [Option.some.injEq] at hst
          refine hi.doOpen ?_ ?_ (h5 e hj) hst
          · simp [endClose, hfd]
          · simp [endClose, hfd]
  | isOpen =>
    simp only [SerialWin.step] at hst
    split at hst
    · simp at hst
    · split at hst
      · simp at hst
      · rcases hst with ⟨a, hst⟩ | ⟨a, hst⟩ <;> cases hst
        exact h0
  | read n =>
    simp only [SerialWin.step] at hst
    split at hst
    · simp at hst
    · split at hst
      · rcases hst with ⟨a, hst⟩ | ⟨a, hst⟩ <;> cases hst
        exact h0
      · rcases hst with ⟨a, hst⟩ | ⟨a, hst⟩ <;> cases hst
        exact ⟨h1, h2, h3, h4, h5, h6, h7⟩
  | wake =>
    simp only [SerialWin.step] at hst
    split at hst
    · split at hst
      · rcases hst with ⟨a, hst⟩ | ⟨a, hst⟩ <;> cases hst
        exact ⟨h1, h2, h3, h4, h5, h6, h7⟩
      · rcases hst with ⟨a, hst⟩ | ⟨a, hst⟩ <;> cases hst
        refine ⟨?_, by simp [endEvent], by simp [endEvent], by simp [endEvent], h5, h6, by simp [endEvent]⟩
        rcases h1 with ⟨a, b, -⟩ | ⟨a, b⟩
        · exact .inl ⟨a, b, rfl⟩
        · exact .inr ⟨a, b⟩
    · simp at hst
  | fail =>
    simp only [SerialWin.step] at hst
    split at hst
    · rcases hst with ⟨a, hst⟩ | ⟨a, hst⟩ <;> cases hst
      refine ⟨?_, by simp [endEvent], by simp [endEvent], by simp [endEvent], h5, h6, by simp [endEvent]⟩
      rcases h1 with ⟨a, b, -⟩ | ⟨a, b⟩
      · exact .inl ⟨a, b, rfl⟩
      · exact .inr ⟨a, b⟩
    · simp at hst
  | recv bs =>
    simp only [SerialWin.step] at hst
    split at hst
    · rcases hst with ⟨a, hst⟩ | ⟨a, hst⟩ <;> cases hst
      exact h0
    · rcases hst with ⟨a, hst⟩ | ⟨a, hst⟩ <;> cases hst
      exact ⟨h1, h2, h3, h4, h5, h6, h7⟩

private theorem inv_run {f : Flag} {ops : List (Op α)} (ht : ∀ e, Op.openPort e ∈ ops → e.thread = true) {s : State α}
    {rs : List (Obs (Ans α))} (h : SerialWin.run .release f State.new ops = some (s, rs)) : Inv s := by
  refine run_inv (m := .release) (f := f) Inv Threads (fun s op s' a b c => a.step b c) ops _ s rs ?_ ?_ h
  · intro op ho
    cases op <;> simp only [Threads]
    exact ht _ ho
  · exact ⟨.inl ⟨rfl, rfl, rfl⟩, by simp [State.new], by simp [State.new], by simp [State.new], by simp [State.new],
      by simp [State.new], by simp [State.new]⟩

/-- Whatever is called and happens (and if threads can be made): the system opens the port at most once in the
life of the object, and that handle is never given back, closed or not.  Once it has been opened and is not
open any more, every attempt to open it again fails. -/
theorem C98_fails_leak (f : Flag) (ops : List (Op α)) (ht : ∀ e, Op.openPort e ∈ ops → e.thread = true) (s : State α)
    (rs : List (Obs (Ans α))) (h : SerialWin.run .release f State.new ops = some (s, rs)) :
    s.next ≤ 1 ∧ s.handles.length = s.next ∧
    (s.next = 1 → s.joining = none → s.isOpen = some false → ∀ e, e.found = true →
      ∃ s', SerialWin.step .release f s (.openPort e) = some (.throw s' .openError)) := by
  have hi : Inv s := inv_run ht h
  refine ⟨?_, ?_, ?_⟩
  · rcases hi.one with ⟨-, b, -⟩ | ⟨-, b⟩ <;> omega
  · rcases hi.one with ⟨a, b, -⟩ | ⟨a, b⟩ <;> rw [a, b] <;> rfl
  · intro hn hj ho e he
    have hh : s.handles = [0] := by
      rcases hi.one with ⟨-, b, -⟩ | ⟨a, -⟩
      · omega
      · exact a
    refine ⟨{ s with fd := none }, ?_⟩
    simp [SerialWin.step, hj, ho, doOpen, he, hh]

/-- A port that is opened, closed after a byte came in, and cannot be opened again. -/
example (f : Flag) : SerialWin.run .release f (State.new : State Nat)
    [.openPort ⟨true, true, true, true⟩, .recv [7], .close, .wake, .joined, .openPort ⟨true, true, true, true⟩] =
    some (⟨some false, false, none, .none, none, [0], 1, [7], false⟩,
      [.ok .done, .ok .done, .ok .waits, .ok .done, .ok .done, .error .openError]) := rfl

/-- `close` does not return before a byte comes in: the call is made, all told bytes are told, and then nothing that
can happen, short of bytes or an error of the port, ends it. -/
theorem C98_fails_close_waits (f : Flag) :
    ∃ s : State α, SerialWin.run .release f State.new [.openPort ⟨true, true, true, true⟩, .close] = some (s, [.ok .done, .ok .waits]) ∧
      ∀ (ops : List (Op α)) (s' : State α) (rs : List (Obs (Ans α))), (∀ op ∈ ops, op ≠ .fail ∧ ∀ bs, op = .recv bs → bs = []) →
        SerialWin.run .release f s ops = some (s', rs) → s'.joining = some none ∧ SerialWin.step .release f s' .joined = none := by
  refine ⟨_, rfl, ?_⟩
  intro ops s' rs ho hr
  have := run_inv (m := .release) (f := f) (fun s : State α => s.joining = some none ∧ s.evt = .waiting ∧ s.signal = false)
    (fun op => op ≠ .fail ∧ ∀ bs, op = .recv bs → bs = []) ?_ ops _ s' rs ho ⟨rfl, rfl, rfl⟩ hr
  · exact ⟨this.1, by simp [SerialWin.step, this.1, this.2.1]⟩
  · rintro s op s' ⟨h1, h2, h3⟩ ⟨o1, o2⟩ hst
    cases op with
    | openPort e => simp [SerialWin.step, h1] at hst
    | close => simp [SerialWin.step, h1] at hst
    | joined => simp [SerialWin.step, h1, h2] at hst
    | isOpen => simp [SerialWin.step, h1] at hst
    | read n => simp [SerialWin.step, h1] at hst
    | wake => simp [SerialWin.step, h3] at hst
    | fail => exact absurd rfl o1
    | recv bs =>
      have := o2 bs rfl
      subst this
      simp only [SerialWin.step] at hst
      split at hst
      · rcases hst with ⟨a, hst⟩ | ⟨a, hst⟩ <;> cases hst
        exact ⟨h1, h2, h3⟩
      · rcases hst with ⟨a, hst⟩ | ⟨a, hst⟩ <;> cases hst
        exact ⟨h1, h2, by simp [h3]⟩

/-- With a byte it does, whatever happened before (if threads can be made). -/
theorem C98_close_partial (f : Flag) (ops : List (Op α)) (ht : ∀ e, Op.openPort e ∈ ops → e.thread = true) (s : State α)
    (rs : List (Obs (Ans α))) (h : SerialWin.run .release f State.new ops = some (s, rs)) (b : α) (hj : s.joining = some none)
    (hw : s.evt = .waiting) :
    ∃ s', SerialWin.run .release f s [.recv [b], .wake, .joined] = some (s', [.ok .done, .ok .done, .ok .done]) ∧
      s'.isOpen = some false ∧ s'.joining = none := by
  have hi := inv_run ht h
  have hr := hi.halt (by simp [hj])
  have hh := hi.port hw
  refine ⟨{ s with queue := s.queue ++ [b], signal := false, evt := .none, fd := none, isOpen := some false, joining := none },
    ?_, rfl, rfl⟩
  simp [SerialWin.run, SerialWin.step, hj, hw, hr, hh, endEvent, endClose]

example (f : Flag) : SerialWin.run .release f (State.new : State Nat) [.openPort ⟨true, true, true, true⟩, .close] =
    some (⟨some true, false, some 0, .waiting, some none, [0], 1, [], false⟩, [.ok .done, .ok .waits]) := rfl

/-- After an error of the port, reads return nothing and report nothing, whatever comes in. -/
theorem C98_fails_silent (f : Flag) (bs : List α) (n : Nat) :
    ∃ s, SerialWin.run .release f State.new [.openPort ⟨true, true, true, true⟩, .fail, .recv bs, .read n] =
      some (s, [.ok .done, .ok .done, .ok .done, .ok (.bytes [])]) ∧ s.queue = bs := by
  refine ⟨_, rfl, rfl⟩

/-- A port that has just been opened has nothing to read, whatever the object did before. -/
theorem C98_open_clears (f : Flag) (s s' : State α) (e : SerialWin.Env)
    (h : SerialWin.step .release f s (.openPort e) = some (.ok s' .done)) : s'.queue = [] ∧ s'.isOpen = some true := by
  simp only [SerialWin.step, doOpen] at h
  repeat' split at h
  all_goals first
    | (exfalso; simp at h; done)
    | (simp only [Option.some.injEq, Res.ok.injEq, and_true] at h
       subst h
       exact ⟨rfl, rfl⟩)

example (f : Flag) : ∃ s', SerialWin.step .release f (State.new : State Nat) (.openPort ⟨true, true, true, true⟩) =
    some (.ok s' .done) := ⟨_, rfl⟩

/-- The bytes that came in during a history. -/
def SerialWin.cameIn : List (Op α) → List α
  | [] => []
  | .recv bs :: l => bs ++ SerialWin.cameIn l
  | _ :: l => SerialWin.cameIn l

/-- The bytes that reads returned. -/
def SerialWin.returned : List (Obs (Ans α)) → List α
  | [] => []
  | .ok (.bytes bs) :: l => bs ++ SerialWin.returned l
  | _ :: l => SerialWin.returned l

/-- While the port is open and has no error, reads return what came in, in order, without loss and without
repetition. -/
theorem C98_read_partial (f : Flag) (ops : List (Op α))
    (ho : ∀ op ∈ ops, (∃ bs, op = .recv bs) ∨ (∃ n, op = .read n) ∨ op = .isOpen ∨ op = .wake) (s : State α)
    (rs : List (Obs (Ans α)))
    (h : SerialWin.run .release f State.new (.openPort ⟨true, true, true, true⟩ :: ops) = some (s, .ok .done :: rs)) :
    SerialWin.returned rs ++ s.queue = SerialWin.cameIn ops ∧ s.isOpen = some true := by
  have gen : ∀ (ops : List (Op α)) (s s' : State α) (rs : List (Obs (Ans α))),
      (∀ op ∈ ops, (∃ bs, op = .recv bs) ∨ (∃ n, op = .read n) ∨ op = .isOpen ∨ op = .wake) →
      s.isOpen = some true → s.fd.isSome → s.joining = none → s.isRun = true → s.handles ≠ [] →
      SerialWin.run .release f s ops = some (s', rs) →
      SerialWin.returned rs ++ s'.queue = s.queue ++ SerialWin.cameIn ops ∧ s'.isOpen = some true := by
    intro ops
    induction ops with
    | nil =>
      intro s s' rs _ h1 _ _ _ _ h
      cases h
      exact ⟨by simp [SerialWin.returned, SerialWin.cameIn], h1⟩
    | cons op ops ih =>
      intro s s' rs ho h1 h2 h3 h4 h5 h
      have ho' : ∀ op ∈ ops, (∃ bs, op = .recv bs) ∨ (∃ n, op = .read n) ∨ op = .isOpen ∨ op = .wake :=
        fun o hm => ho o (by simp [hm])
      have tail : ∀ (t : State α) (a : Ans α), t.isOpen = some true → t.fd.isSome → t.joining = none → t.isRun = true →
          t.handles ≠ [] → SerialWin.step .release f s op = some (.ok t a) →
          ∃ rs', rs = .ok a :: rs' ∧ SerialWin.returned rs' ++ s'.queue = t.queue ++ SerialWin.cameIn ops ∧ s'.isOpen = some true := by
        intro t a t1 t2 t3 t4 t5 hs
        simp only [SerialWin.run, hs] at h
        cases hq : SerialWin.run .release f t ops with
        | none => rw [hq] at h; cases h
        | some q =>
          rw [hq] at h
          obtain ⟨q1, q2⟩ := q
          cases h
          exact ⟨q2, rfl, ih t _ _ ho' t1 t2 t3 t4 t5 hq⟩
      rcases ho op (by simp) with ⟨bs, rfl⟩ | ⟨n, rfl⟩ | rfl | rfl
      · obtain ⟨rs', rfl, e1, e2⟩ := tail { s with queue := s.queue ++ bs, signal := s.signal || !bs.isEmpty } .done h1 h2 h3 h4 h5
          (by simp [SerialWin.step, h5])
        exact ⟨by simpa [SerialWin.returned, SerialWin.cameIn] using e1, e2⟩
      · obtain ⟨k, hk⟩ := Option.isSome_iff_exists.1 h2
        obtain ⟨rs', rfl, e1, e2⟩ := tail { s with queue := s.queue.drop n } (.bytes (s.queue.take n)) h1 h2 h3 h4 h5
          (by simp [SerialWin.step, h3, hk])
        refine ⟨?_, e2⟩
        simp only [SerialWin.returned, SerialWin.cameIn, List.append_assoc, e1]
        rw [← List.append_assoc, List.take_append_drop]
      · obtain ⟨rs', rfl, e1, e2⟩ := tail s (.bool true) h1 h2 h3 h4 h5 (by simp [SerialWin.step, h3, h1])
        exact ⟨by simpa [SerialWin.returned, SerialWin.cameIn] using e1, e2⟩
      · by_cases hw : s.evt = .waiting ∧ s.signal = true
        · obtain ⟨rs', rfl, e1, e2⟩ := tail { s with signal := false } .done h1 h2 h3 h4 h5
            (by simp only [SerialWin.step, if_pos hw, h4, if_true])
          exact ⟨by simpa [SerialWin.returned, SerialWin.cameIn] using e1, e2⟩
        · simp only [SerialWin.run, SerialWin.step, if_neg hw] at h
          cases h
  have hs : SerialWin.step .release f (State.new : State α) (.openPort ⟨true, true, true, true⟩) =
    some (.ok ⟨some true, true, some 0, .waiting, none, [0], 1, [], false⟩ .done) := rfl
  simp only [SerialWin.run, hs] at h
  cases hq : SerialWin.run .release f (⟨some true, true, some 0, .waiting, none, [0], 1, [], false⟩ : State α) ops with
  | none => rw [hq] at h; cases h
  | some q =>
    rw [hq] at h
    obtain ⟨q1, q2⟩ := q
    cases h
    simpa using gen ops _ _ _ ho rfl rfl rfl rfl (by simp) hq

example (f : Flag) : SerialWin.run .release f (State.new : State Nat)
    [.openPort ⟨true, true, true, true⟩, .recv [1, 2], .read 1, .wake, .recv [3], .read 8, .isOpen] =
    some (⟨some true, true, some 0, .waiting, none, [0], 1, [], true⟩,
      [.ok .done, .ok .done, .ok (.bytes [1]), .ok .done, .ok .done, .ok (.bytes [2, 3]), .ok (.bool true)]) := rfl

end Ecl.Props
