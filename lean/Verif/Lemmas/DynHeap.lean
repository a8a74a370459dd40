import Verif.Model.ArrayMore
import Verif.Lemmas.Ring

set_option autoImplicit false
set_option linter.unusedSimpArgs false

namespace Ecl.DynHeap
variable {α : Type _}

/-- Every object owns a live block of the right length, no block has two owners, addresses from
`next` on are unused. -/
structure Inv (s : St α) : Prop where
  live : ∀ i p, (s.obj i).buf = some p → ∃ l, s.mem p = some l ∧ l.length = (s.obj i).size
  null : ∀ i, (s.obj i).buf = none → (s.obj i).size = 0
  inj : ∀ i j p, (s.obj i).buf = some p → (s.obj j).buf = some p → i = j
  fresh : ∀ p, s.next ≤ p → s.mem p = none

theorem Inv.init : Inv (DynHeap.init : St α) :=
  ⟨by simp [DynHeap.init], by simp [DynHeap.init], by simp [DynHeap.init], by simp [DynHeap.init]⟩

theorem Inv.lt_next {s : St α} (h : Inv s) {i p : Nat} (hp : (s.obj i).buf = some p) : p < s.next := by
  obtain ⟨l, hl, _⟩ := h.live i p hp
  rcases Nat.lt_or_ge p s.next with h' | h'
  · exact h'
  · rw [h.fresh p h'] at hl; simp at hl

theorem Inv.size_eq {s : St α} (h : Inv s) (i : Nat) : (contents s i).length = (s.obj i).size := by
  unfold contents
  cases hb : (s.obj i).buf with
  | none => simp [h.null i hb]
  | some p => obtain ⟨l, hl, hs⟩ := h.live i p hb; simp [hl, hs]

/-- Dropping the buffer of object `i` (the `delete[]` of `resize`/`clear`/`~Array`). -/
theorem Inv.drop {s : St α} (h : Inv s) (i : Nat) :
    ∃ s', release s i = .ok s' ∧
      s'.obj = s.obj ∧ s'.next = s.next ∧
      (∀ p, s.next ≤ p → s'.mem p = none) ∧
      (∀ j, j ≠ i → ∀ p, (s.obj j).buf = some p → s'.mem p = s.mem p) := by
  unfold release
  cases hb : (s.obj i).buf with
  | none => exact ⟨s, rfl, rfl, rfl, h.fresh, fun _ _ _ _ => rfl⟩
  | some p =>
    obtain ⟨l, hl, _⟩ := h.live i p hb
    refine ⟨setMem s p none, by simp [delete, hl], rfl, rfl, ?_, ?_⟩
    · intro q hq
      simp only [setMem]; split
      · rfl
      · exact h.fresh q hq
    · intro j hj q hq
      have : q ≠ p := fun e => hj (h.inj j i p (e ▸ hq) hb)
      simp [setMem, this]

theorem Inv.resize {s : St α} (h : Inv s) (i n : Nat) (junk : Nat → α) :
    ∃ s', DynHeap.resize s i n junk = .ok s' ∧ Inv s' ∧
      (∃ p, s'.obj i = ⟨n, some p⟩ ∧ s'.mem p = some ((List.range n).map junk)) ∧
      (∀ j, j ≠ i → s'.obj j = s.obj j) ∧
      (∀ j, j ≠ i → contents s' j = contents s j) := by
  obtain ⟨s1, h1, ho, hn, hf, hm⟩ := h.drop i
  refine ⟨setObj { setMem s1 s1.next (some ((List.range n).map junk)) with next := s1.next + 1 } i
    ⟨n, some s1.next⟩, ?_, ?_, ?_, ?_, ?_⟩
  · simp only [DynHeap.resize]
    rw [h1]; rfl
  · refine ⟨?_, ?_, ?_, ?_⟩
    · intro j p hp
      by_cases hj : j = i
      · subst hj
        simp only [setObj, if_true, Option.some.injEq] at hp ⊢
        subst hp
        exact ⟨(List.range n).map junk, by simp [setMem], by simp⟩
      · simp only [setObj, hj, if_false, setMem, ho] at hp ⊢
        have hlt := h.lt_next hp
        rw [if_neg (by omega), hm j hj p hp]
        exact h.live j p hp
    · intro j hp
      by_cases hj : j = i
      · simp [setObj, hj] at hp
      · simp only [setObj, hj, if_false, setMem, ho] at hp ⊢
        exact h.null j hp
    · intro j k p hp hq
      by_cases hj : j = i <;> by_cases hk : k = i
      · rw [hj, hk]
      · exfalso
        simp only [setObj, hj, hk, if_true, if_false, setMem, ho, Option.some.injEq] at hp hq
        have := h.lt_next hq
        omega
      · exfalso
        simp only [setObj, hj, hk, if_true, if_false, setMem, ho, Option.some.injEq] at hp hq
        have := h.lt_next hp
        omega
      · simp only [setObj, hj, hk, if_false, setMem, ho] at hp hq
        exact h.inj j k p hp hq
    · intro p hp
      simp only [setObj, setMem, hn] at hp ⊢
      rw [if_neg (by omega)]
      exact hf p (by omega)
  · exact ⟨s1.next, by simp [setObj], by simp [setObj, setMem]⟩
  · intro j hj; simp [setObj, hj, setMem, ho]
  · intro j hj
    unfold contents
    simp only [setObj, hj, if_false, setMem, ho]
    cases hb : (s.obj j).buf with
    | none => rfl
    | some p =>
      have hlt := h.lt_next hb
      simp only
      rw [if_neg (by omega), hm j hj p hb]

theorem Inv.clear {s : St α} (h : Inv s) (i : Nat) :
    ∃ s', DynHeap.clear s i = .ok s' ∧ Inv s' ∧ contents s' i = [] ∧
      (∀ j, j ≠ i → contents s' j = contents s j) := by
  obtain ⟨s1, h1, ho, hn, hf, hm⟩ := h.drop i
  refine ⟨setObj s1 i ⟨0, none⟩, ?_, ?_, ?_, ?_⟩
  · simp only [DynHeap.clear]
    rw [h1]; rfl
  · refine ⟨?_, ?_, ?_, ?_⟩
    · intro j p hp
      by_cases hj : j = i
      · simp [setObj, hj] at hp
      · simp only [setObj, hj, if_false, ho] at hp ⊢
        rw [hm j hj p hp]; exact h.live j p hp
    · intro j hp
      by_cases hj : j = i
      · simp [setObj, hj]
      · simp only [setObj, hj, if_false, ho] at hp ⊢
        exact h.null j hp
    · intro j k p hp hq
      by_cases hj : j = i
      · simp [setObj, hj] at hp
      · by_cases hk : k = i
        · simp [setObj, hk] at hq
        · simp only [setObj, hj, hk, if_false, ho] at hp hq
          exact h.inj j k p hp hq
    · intro p hp
      simp only [setObj, hn] at hp ⊢
      exact hf p hp
  · simp [contents, setObj]
  · intro j hj
    unfold contents
    simp only [setObj, hj, if_false, ho]
    cases hb : (s.obj j).buf with
    | none => rfl
    | some p => simp only; rw [hm j hj p hb]

/-- Overwriting the block of object `i` by a list of the same length. -/
theorem Inv.overwrite {s : St α} (h : Inv s) {i p : Nat} (hp : (s.obj i).buf = some p) (l : List α)
    (hl : l.length = (s.obj i).size) :
    Inv (setMem s p (some l)) ∧ contents (setMem s p (some l)) i = l ∧
      ∀ j, j ≠ i → contents (setMem s p (some l)) j = contents s j := by
  refine ⟨⟨?_, h.null, h.inj, ?_⟩, ?_, ?_⟩
  · intro j q hq
    by_cases hqp : q = p
    · subst hqp
      have : j = i := h.inj j i q hq hp
      subst this
      exact ⟨l, by simp [setMem], hl⟩
    · simp only [setMem, hqp, if_false]; exact h.live j q hq
  · intro q hq
    have := h.lt_next hp
    simp only [setMem] at hq ⊢
    rw [if_neg (by omega)]; exact h.fresh q hq
  · simp [contents, setMem, hp]
  · intro j hj
    unfold contents
    simp only [setMem]
    cases hb : (s.obj j).buf with
    | none => rfl
    | some q =>
      have : q ≠ p := fun e => hj (h.inj j i p (e ▸ hb) hp)
      simp [this]

end Ecl.DynHeap
