import Verif.Spec.SharedDisk
import Mathlib.Tactic.ByContra
import Mathlib.Order.Nat
import Mathlib.Data.Nat.Find

/-!
# Lemmas on one shared file over a disk that refuses bytes
-/
set_option autoImplicit false

namespace Ecl.Props.C139
open SharedDisk
variable {α : Type _}

theorem append_eq (b l : List α) (h : b.length ≤ 4096) :
    Buf.append Shared.cap b l = .ok ((b ++ l).take 4096, min (4096 - b.length) l.length) := by
  rw [show Shared.cap = 4096 from rfl]
  unfold Buf.append
  rw [if_neg (show ¬ 4096 < b.length by omega)]
  simp only
  by_cases hle : l.length ≤ 4096 - b.length
  · rw [if_pos hle, List.take_of_length_le (by simp; omega), Nat.min_eq_right hle]
  · rw [if_neg hle, Nat.min_eq_left (by omega), List.take_append, List.take_of_length_le h]

theorem flushed_short (m : Mode) (disk : Nat → Answer) (s : St α) (next : St α → Res (St α) Int)
    (h : s.buf.length ≠ 4096) : flushed m disk s next = next s := by
  unfold flushed
  rw [if_neg]
  simpa [Buf.full, Shared.cap] using h

theorem flushed_full (m : Mode) (disk : Nat → Answer) (s : St α) (next : St α → Res (St α) Int)
    (h : s.buf.length = 4096) :
    (disk s.asked = none → flushed m disk s next = next ⟨[], s.out ++ s.buf, s.asked + 1, .noError⟩) ∧
    (∀ k, disk s.asked = some k → flushed m disk s next = refused m s s.buf 0 k) := by
  have hne : s.buf ≠ [] := by intro e; rw [e] at h; simp at h
  have hf : Buf.full Shared.cap s.buf = true := by simp [Buf.full, Shared.cap, h]
  have htake : List.take 4096 s.buf = s.buf := List.take_of_length_le (by omega)
  constructor
  · intro hd
    simp [flushed, hf, flush, hne, hd]
  · intro k hd
    cases m <;> simp [flushed, hf, flush, hne, hd, refused, htake]

theorem shift_fine (s : St α) (all : List α) (q : Nat) (h : 4096 ≤ all.length) (e : Flag) :
    fine ⟨[], s.out ++ all.take 4096, s.asked + 1, .noError⟩ (all.drop 4096) q =
      { fine { s with err := e } all (q + 1) with } := by
  have h1 : (q + 1) * 4096 = 4096 + q * 4096 := by omega
  simp only [fine, h1, List.take_add, List.drop_drop, List.append_assoc]
  simp
  omega

theorem shift_refused (m : Mode) (s : St α) (all : List α) (j k : Nat) :
    refused m ⟨[], s.out ++ all.take 4096, s.asked + 1, .noError⟩ (all.drop 4096) j k =
      refused m s all (j + 1) k := by
  have h1 : (j + 1) * 4096 = 4096 + j * 4096 := by omega
  have h2 : s.asked + 1 + j + 1 = s.asked + (j + 1) + 1 := by omega
  unfold refused
  simp only [h1, h2, List.take_add, List.drop_drop, List.append_assoc]
  cases m <;> simp

theorem loop_eq (m : Mode) (disk : Nat → Answer) (n : Int) : ∀ (f : Nat) (s : St α) (cs : List α),
    s.buf.length < 4096 → cs.length ≤ f →
    ((∀ i < (s.buf ++ cs).length / 4096, disk (s.asked + i) = none) →
      loop m disk n f s cs = .ok (fine s (s.buf ++ cs) ((s.buf ++ cs).length / 4096)) n) ∧
    (∀ j < (s.buf ++ cs).length / 4096, (∀ i < j, disk (s.asked + i) = none) → ∀ k, disk (s.asked + j) = some k →
      loop m disk n f s cs = refused m s (s.buf ++ cs) j k) := by
  intro f
  induction f with
  | zero =>
    intro s cs hb hf
    have : cs = [] := List.length_eq_zero_iff.1 (by omega)
    subst this
    have hq : (s.buf ++ ([] : List α)).length / 4096 = 0 := by simp; omega
    rw [hq]
    refine ⟨fun _ => ?_, fun j hj => by omega⟩
    simp [loop, fine]
  | succ f ih =>
    intro s cs hb hf
    cases cs with
    | nil =>
      have hq : (s.buf ++ ([] : List α)).length / 4096 = 0 := by simp; omega
      rw [hq]
      refine ⟨fun _ => ?_, fun j hj => by omega⟩
      simp [loop, fine]
    | cons c cs =>
      generalize hl : c :: cs = l at *
      have hlen : 0 < l.length := by rw [← hl]; simp
      have hstep : loop m disk n (f + 1) s l =
          flushed m disk { s with buf := (s.buf ++ l).take 4096 } fun s' =>
            loop m disk n f s' (l.drop (min (4096 - s.buf.length) l.length)) := by
        rw [← hl, loop, append_eq _ _ (by omega)]
      by_cases hs : (s.buf ++ l).length < 4096
      · have hq : (s.buf ++ l).length / 4096 = 0 := by omega
        rw [hq]
        refine ⟨fun _ => ?_, fun j hj => by omega⟩
        rw [hstep, flushed_short _ _ _ _ (by simp only [List.length_take]; omega)]
        have hm : min (4096 - s.buf.length) l.length = l.length := by
          rw [List.length_append] at hs; omega
        rw [hm, List.drop_length, List.take_of_length_le (by omega)]
        simp [loop, fine]
      · have hlenall : 4096 ≤ (s.buf ++ l).length := by omega
        have hm : min (4096 - s.buf.length) l.length = 4096 - s.buf.length := by
          rw [List.length_append] at hlenall; omega
        have hfull : ((s.buf ++ l).take 4096).length = 4096 := by rw [List.length_take]; omega
        have hdrop : l.drop (4096 - s.buf.length) = (s.buf ++ l).drop 4096 := by
          rw [List.drop_append, List.drop_eq_nil_of_le (by omega : s.buf.length ≤ 4096), List.nil_append]
        rw [hstep, hm, hdrop]
        obtain ⟨h0, h1⟩ := flushed_full m disk { s with buf := (s.buf ++ l).take 4096 }
          (fun s' => loop m disk n f s' ((s.buf ++ l).drop 4096)) hfull
        simp only at h0 h1
        obtain ⟨i0, i1⟩ := ih ⟨[], s.out ++ (s.buf ++ l).take 4096, s.asked + 1, .noError⟩ ((s.buf ++ l).drop 4096)
          (by simp) (by rw [List.length_drop]; rw [List.length_append] at hlenall ⊢; omega)
        simp only [List.nil_append] at i0 i1
        have hq : (s.buf ++ l).length / 4096 = ((s.buf ++ l).drop 4096).length / 4096 + 1 := by
          rw [List.length_drop]; omega
        rw [hq]
        refine ⟨fun h => ?_, fun j hj h k hk => ?_⟩
        · rw [h0 (by simpa using h 0 (by omega)), i0 (fun i hi => by
            have := h (i + 1) (by omega)
            rwa [← Nat.add_assoc, Nat.add_right_comm] at this), shift_fine s _ _ hlenall s.err]
        · cases j with
          | zero =>
            rw [h1 k (by simpa using hk)]
            unfold refused
            simp [List.take_take]
          | succ j =>
            rw [h0 (by simpa using h 0 (by omega)), i1 j (by omega) (fun i hi => by
              have := h (i + 1) (by omega)
              rwa [← Nat.add_assoc, Nat.add_right_comm] at this) k (by
              rwa [← Nat.add_assoc, Nat.add_right_comm] at hk), shift_refused]

/-- A buffer that is full is passed on before anything is taken. -/
theorem write_full (m : Mode) (disk : Nat → Answer) (s : St α) (cs : List α) (hb : s.buf.length = 4096)
    (hc : cs ≠ []) :
    (disk s.asked = none → SharedDisk.write m disk s cs =
      SharedDisk.write m disk ⟨[], s.out ++ s.buf, s.asked + 1, .noError⟩ cs) ∧
    (∀ k, disk s.asked = some k → SharedDisk.write m disk s cs = refused m s s.buf 0 k) := by
  obtain ⟨c, l, rfl⟩ := List.exists_cons_of_ne_nil hc
  have hstep : SharedDisk.write m disk s (c :: l) =
      flushed m disk s fun s' => loop m disk ((c :: l).length : Int) (c :: l).length s' (c :: l) := by
    rw [SharedDisk.write, loop, append_eq _ _ (by omega)]
    have ht : (s.buf ++ c :: l).take 4096 = s.buf := by
      rw [List.take_append, List.take_of_length_le (by omega), hb]; simp
    simp only [ht, hb, Nat.sub_self, Nat.zero_min, List.drop_zero]
  obtain ⟨h0, h1⟩ := flushed_full m disk s
    (fun s' => loop m disk ((c :: l).length : Int) (c :: l).length s' (c :: l)) hb
  refine ⟨fun h => ?_, fun k hk => by rw [hstep, h1 k hk]⟩
  rw [hstep, h0 h, SharedDisk.write]
  have key := fun f hf => loop_eq m disk ((c :: l).length : Int) f
    (⟨[], s.out ++ s.buf, s.asked + 1, .noError⟩ : St α) (c :: l) (by simp) hf
  by_cases hall : ∀ i < ([] ++ (c :: l)).length / 4096, disk (s.asked + 1 + i) = none
  · rw [(key _ (Nat.le_refl _)).1 hall, (key _ (Nat.le_succ _)).1 hall]
  · have : ∃ j, j < ([] ++ (c :: l)).length / 4096 ∧ disk (s.asked + 1 + j) ≠ none := by
      by_contra hn
      exact hall fun i hi => by
        by_contra hne
        exact hn ⟨i, hi, hne⟩
    obtain ⟨hj1, hj2⟩ := Nat.find_spec this
    have hmin : ∀ i < Nat.find this, disk (s.asked + 1 + i) = none := by
      intro i hi
      have := Nat.find_min this hi
      by_contra hne
      exact this ⟨by omega, hne⟩
    obtain ⟨k, hk⟩ := Option.ne_none_iff_exists'.1 hj2
    rw [(key _ (Nat.le_refl _)).2 _ hj1 hmin k hk, (key _ (Nat.le_succ _)).2 _ hj1 hmin k hk]

theorem first (disk : Nat → Answer) (a : Nat) : ∀ q, (∀ i < q, disk (a + i) = none) ∨
    ∃ j < q, (∀ i < j, disk (a + i) = none) ∧ ∃ k, disk (a + j) = some k := by
  intro q
  induction q with
  | zero => exact .inl fun i hi => by omega
  | succ q ih =>
    rcases ih with h | ⟨j, hj, h1, h2⟩
    · cases hd : disk (a + q) with
      | none =>
        refine .inl fun i hi => ?_
        by_cases hq : i = q
        · rw [hq, hd]
        · exact h i (by omega)
      | some k => exact .inr ⟨q, by omega, h, k, hd⟩
    · exact .inr ⟨j, by omega, h1, h2⟩

/-- How a call that hands over bytes may end. -/
def Ends (m : Mode) (disk : Nat → Answer) (s : St α) (cs : List α) (r : Res (St α) Int) : Prop :=
  (∃ s', r = .ok s' cs.length ∧ s'.out ++ s'.buf = s.out ++ s.buf ++ cs ∧ s'.buf.length ≤ 4096 ∧
    (s'.err = .noError ∨ s'.err = s.err)) ∨
  (∃ s', m = .debug ∧ r = .throw s' .writeError ∧ s'.buf.length = 4096 ∧ (s'.err = .noError ∨ s'.err = s.err) ∧
    ((∀ i k, disk i = some k → k = 0) → ∃ t, s'.out ++ s'.buf = s.out ++ s.buf ++ cs.take t)) ∨
  (∃ s', m = .release ∧ r = .ok s' (-1) ∧ s'.buf = [] ∧ s'.err = .writeError)

theorem refused_ends (m : Mode) (disk : Nat → Answer) (s : St α) (cs : List α) (j k i : Nat)
    (hj : (j + 1) * 4096 ≤ (s.buf ++ cs).length) (hb : s.buf.length ≤ 4096) (hk : disk i = some k) :
    Ends m disk s cs (refused m s (s.buf ++ cs) j k) := by
  cases m
  · refine .inr (.inl ⟨_, rfl, rfl, ?_, ?_, fun hc => ⟨(j + 1) * 4096 - s.buf.length, ?_⟩⟩)
    · simp only [List.length_take, List.length_drop]; omega
    · simp only; split <;> simp
    · rw [hc i k hk]
      have h1 : (j + 1) * 4096 = j * 4096 + 4096 := by omega
      have h2 : (s.buf ++ cs).take ((j + 1) * 4096) = s.buf ++ cs.take ((j + 1) * 4096 - s.buf.length) := by
        rw [List.take_append, List.take_of_length_le (by omega)]
      simp only [List.take_zero, List.append_nil, List.append_assoc]
      rw [← h2, h1, List.take_add]
  · exact .inr (.inr ⟨_, rfl, rfl, rfl, rfl⟩)

theorem write_short_ends (m : Mode) (disk : Nat → Answer) (s : St α) (cs : List α) (hb : s.buf.length < 4096) :
    Ends m disk s cs (SharedDisk.write m disk s cs) := by
  obtain ⟨h0, h1⟩ := loop_eq m disk cs.length (cs.length + 1) s cs hb (by omega)
  unfold SharedDisk.write
  rcases first disk s.asked ((s.buf ++ cs).length / 4096) with h | ⟨j, hj, h2, k, hk⟩
  · rw [h0 h]
    refine .inl ⟨_, rfl, ?_, ?_, ?_⟩
    · simp only [fine, List.append_assoc, List.take_append_drop]
    · simp only [fine, List.length_drop]; omega
    · simp only [fine]; split <;> simp
  · rw [h1 j hj h2 k hk]
    exact refused_ends m disk s cs j k _ (by omega) (by omega) hk

theorem write_ends (m : Mode) (disk : Nat → Answer) (s : St α) (cs : List α) (hb : s.buf.length ≤ 4096) :
    Ends m disk s cs (SharedDisk.write m disk s cs) := by
  by_cases hf : s.buf.length < 4096
  · exact write_short_ends m disk s cs hf
  · have hf : s.buf.length = 4096 := by omega
    by_cases hc : cs = []
    · subst hc
      exact .inl ⟨s, rfl, by simp, hb, .inr rfl⟩
    · obtain ⟨h0, h1⟩ := write_full m disk s cs hf hc
      cases hd : disk s.asked with
      | none =>
        rw [h0 hd]
        rcases write_short_ends m disk ⟨[], s.out ++ s.buf, s.asked + 1, .noError⟩ cs (by simp) with
          ⟨s', e, h2, h3, h4⟩ | ⟨s', hm, e, h2, h3, h4⟩ | ⟨s', hm, e, h2, h3⟩
        · exact .inl ⟨s', e, by rw [h2]; simp, h3, .inl (by simpa using h4)⟩
        · exact .inr (.inl ⟨s', hm, e, h2, .inl (by simpa using h3), fun hc => by
            obtain ⟨t, ht⟩ := h4 hc; exact ⟨t, by rw [ht]; simp⟩⟩)
        · exact .inr (.inr ⟨s', hm, e, h2, h3⟩)
      | some k =>
        rw [h1 k hd]
        cases m
        · refine .inr (.inl ⟨_, rfl, rfl, ?_, ?_, fun hcl => ⟨0, ?_⟩⟩)
          · simp [hf]
          · simp
          · rw [hcl _ k hd]
            simp only [Nat.zero_mul, List.drop_zero, List.take_zero, List.append_nil]
            rw [List.take_of_length_le (by omega)]
        · exact .inr (.inr ⟨_, rfl, rfl, rfl, rfl⟩)

/-- A character is written like a text of one, unless the buffer is full. -/
theorem put_short (m : Mode) (disk : Nat → Answer) (s : St α) (c : α) (hb : s.buf.length < 4096) :
    SharedDisk.put m disk s c = SharedDisk.write m disk s [c] := by
  have h1 : Buf.append1 Shared.cap s.buf c = .ok (s.buf ++ [c], 1) := by
    unfold Buf.append1 Buf.full
    rw [show Shared.cap = 4096 from rfl, if_neg (by simp; omega), if_pos hb]
  have ht : (s.buf ++ [c]).take 4096 = s.buf ++ [c] := List.take_of_length_le (by simp; omega)
  have hm : min (4096 - s.buf.length) 1 = 1 := by omega
  rw [SharedDisk.put, h1, SharedDisk.write, loop, append_eq _ _ (by omega), ht]
  simp only [List.length_singleton, hm, List.drop_one, List.tail_cons]
  congr 1

theorem put_full (m : Mode) (disk : Nat → Answer) (s : St α) (c : α) (hb : s.buf.length = 4096) :
    (disk s.asked = none → SharedDisk.put m disk s c = .ok ⟨[], s.out ++ s.buf, s.asked + 1, .noError⟩ 0) ∧
    (∀ k, disk s.asked = some k → SharedDisk.put m disk s c = refused m s s.buf 0 k) := by
  have h1 : Buf.append1 Shared.cap s.buf c = .ok (s.buf, 0) := by
    unfold Buf.append1 Buf.full
    rw [show Shared.cap = 4096 from rfl, if_pos (by simp [hb])]
  have := flushed_full m disk s (fun s => .ok s ((0 : Nat) : Int)) hb
  rw [SharedDisk.put, h1]
  exact this

end Ecl.Props.C139
