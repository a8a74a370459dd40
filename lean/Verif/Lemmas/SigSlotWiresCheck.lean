import Verif.Lemmas.SigSlotWiresAlone

/-! # Checking that a given history is orderly -/
set_option autoImplicit false
set_option linter.unusedSimpArgs false

namespace Ecl.SigSlots.Wires
open Ecl.Spec.Wiring

def wiresB (m : Mem) : Call → Bool
  | .connect _ _ | .subscribe _ _ | .disconnect _ => true
  | .drop e => decide (num (m (.handles e)) ≤ 1)
  | _ => false

theorem wiresB_iff {m : Mem} {c : Call} : wiresB m c = true ↔ Rewires m c := by
  cases c <;> simp [wiresB, Rewires]

def reachedL (m : Mem) : Call → List Nat
  | .emit e => (m (.publications e)).flatMap fun t => m (.subs t)
  | _ => []

theorem reachedL_iff {m : Mem} {c : Call} {s : Nat} : Reached m c s ↔ s ∈ reachedL m c := by
  cases c <;> simp [reachedL, Reached]

def separateB (m : Mem) (c : Call) (m' : Mem) (c' : Call) : Bool :=
  decide (endpoint c ≠ endpoint c') && !(wiresB m c && wiresB m' c') &&
    (!(wiresB m c || wiresB m' c') || (topicsOf m c).all fun t => decide (t ∉ topicsOf m' c')) &&
    (reachedL m c).all fun s => decide (s ∉ reachedL m' c')

theorem separate_of {m m' : Mem} {c c' : Call} (h : separateB m c m' c' = true) : Separate m c m' c' := by
  simp only [separateB, Bool.and_eq_true, Bool.or_eq_true, Bool.not_eq_true', List.all_eq_true, decide_eq_true_eq] at h
  obtain ⟨⟨⟨h1, h2⟩, h3⟩, h4⟩ := h
  refine ⟨h1, ?_, ?_, ?_⟩
  · rintro ⟨a, b⟩
    rw [← wiresB_iff] at a b
    simp [a, b] at h2
  · intro hw t ht
    rw [← wiresB_iff, ← wiresB_iff] at hw
    rcases h3 with h3 | h3
    · rcases hw with hw | hw <;> simp [hw] at h3
    · exact h3 t ht
  · intro s hs
    rw [reachedL_iff] at *
    exact h4 s hs

def orderlyB (n : Nat) (s : State) : Event → Bool
  | .start i c => decide (i < n) && (List.range n).all fun j =>
      match s.th j with
      | none => true
      | some a => separateB a.tables a.call s.mem c
  | .step _ => true

def allOrderlyB (n : Nat) (s : State) : List Event → Bool
  | [] => true
  | e :: es => orderlyB n s e && allOrderlyB n (step s e) es

theorem allOrderly_of (n : Nat) : ∀ (es : List Event) (s : State), (∀ j, n ≤ j → s.th j = none) →
    allOrderlyB n s es = true → AllOrderly s es := by
  intro es
  induction es with
  | nil => intro s _ _; trivial
  | cons e es ih =>
    intro s hs h
    rw [allOrderlyB, Bool.and_eq_true] at h
    refine ⟨?_, ih _ ?_ h.2⟩
    · cases e with
      | step i => trivial
      | start i c =>
        intro _ j a hj
        have h1 := h.1
        simp only [orderlyB, Bool.and_eq_true, List.all_eq_true, List.mem_range] at h1
        have hjn : j < n := by
          by_contra hc
          rw [hs j (by omega)] at hj
          cases hj
        have := h1.2 j hjn
        rw [hj] at this
        exact separate_of this
    · intro j hj
      cases e with
      | start i c =>
        have h1 := h.1
        simp only [orderlyB, Bool.and_eq_true, decide_eq_true_eq] at h1
        have hji : j ≠ i := by omega
        cases hi : s.th i with
        | none => simp only [step, hi]; rw [Function.update_of_ne hji]; exact hs j hj
        | some a => simp only [step, hi]; exact hs j hj
      | step i =>
        rcases hi : s.th i with _ | ⟨c, m, k, p⟩
        · simp only [step, hi]; exact hs j hj
        · have hji : j ≠ i := by rintro rfl; rw [hs j hj] at hi; cases hi
          cases p <;> simp only [step, hi] <;> rw [Function.update_of_ne hji] <;> exact hs j hj

/-- A thread that goes on comes to the end of its call. -/
theorem finishes : ∀ (p : Prog) (s : State) (i : Nat) (c : Call) (m : Mem) (n : Nat), s.th i = some ⟨c, m, n, p⟩ →
    ∃ k, (exec s (List.replicate k (.step i))).th i = none ∧ (exec s (List.replicate k (.step i))).results n ≠ none := by
  intro p
  induction p with
  | ret r =>
    intro s i c m n h
    refine ⟨1, ?_⟩
    simp [exec, step, h]
  | put x v p ih =>
    intro s i c m n h
    obtain ⟨k, hk⟩ := ih (step s (.step i)) i c m n (by simp [step, h])
    exact ⟨k + 1, hk⟩
  | get x f ih =>
    intro s i c m n h
    obtain ⟨k, hk⟩ := ih (s.mem x) (step s (.step i)) i c m n (by simp [step, h])
    exact ⟨k + 1, hk⟩

end Ecl.SigSlots.Wires
