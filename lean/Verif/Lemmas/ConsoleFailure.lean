import Verif.Spec.ConsoleBlocks
import Mathlib.Data.List.TakeWhile
import Mathlib.Tactic.Ring

/-!
# Lemmas for C135
-/
set_option autoImplicit false

namespace Ecl.Props.C135
open ConsoleFailure ConsoleBlocks

theorem blocks_short {n : ℕ} {l : List Char} (h : l.length < n) : blocks n l = [] ∧ rest n l = l := by
  unfold blocks rest
  rw [Nat.div_eq_of_lt h]; simp

theorem blocks_long {n : ℕ} {l : List Char} (hn : 0 < n) (h : n ≤ l.length) :
    blocks n l = l.take n :: blocks n (l.drop n) ∧ rest n l = rest n (l.drop n) := by
  have hd : l.length / n = (l.length - n) / n + 1 := by
    rw [← Nat.sub_add_cancel h, Nat.add_div_right _ hn]; simp
  unfold blocks rest
  rw [List.length_drop, hd]
  constructor
  · rw [List.range_succ_eq_map]
    simp only [List.map_cons, List.map_map, Nat.zero_mul, List.drop_zero, List.cons.injEq, true_and]
    apply List.map_congr_left
    intro i _
    simp only [Function.comp, List.drop_drop, Nat.succ_eq_add_one]
    congr 2; ring
  · rw [List.drop_drop]; congr 1; ring

theorem blocks_full {l : List Char} (h : l.length = 4095) : blocks 4095 l = [l] ∧ rest 4095 l = [] := by
  have h1 := blocks_long (n := 4095) (l := l) (by norm_num) (by omega)
  have h2 : l.drop 4095 = [] := List.drop_eq_nil_of_le (by omega)
  have h3 := blocks_short (n := 4095) (l := []) (by simp)
  rw [h2, h3.1, h3.2, List.take_of_length_le (by omega)] at h1
  exact h1

/-- The result of a write: the blocks one after the other, then the rest. -/
def after (m : Mode) (term : ℕ → Answer) : St → List (List Char) → List Char → ℕ → Ret
  | s, [], r, n => .ok { s with buf := r } n
  | s, b :: bs, r, n =>
    match term s.asked, m with
    | some k, .debug => .throw ⟨[], s.out ++ shown (some k) b, s.asked + 1⟩ .writeError
    | a, _ => after m term ⟨[], s.out ++ shown a b, s.asked + 1⟩ bs r n

theorem after_none {m : Mode} {term : ℕ → Answer} {s : St} (h : term s.asked = none) (b : List Char)
    (bs : List (List Char)) (r : List Char) (n : ℕ) : after m term s (b :: bs) r n =
      after m term ⟨[], s.out ++ shown none b, s.asked + 1⟩ bs r n := by
  rw [after] <;> simp [h]

theorem after_release {term : ℕ → Answer} {s : St} (b : List Char)
    (bs : List (List Char)) (r : List Char) (n : ℕ) : after .release term s (b :: bs) r n =
      after .release term ⟨[], s.out ++ shown (term s.asked) b, s.asked + 1⟩ bs r n := by
  rw [after]
  simp

theorem after_debug {term : ℕ → Answer} {s : St} {k : ℕ} (h : term s.asked = some k) (b : List Char)
    (bs : List (List Char)) (r : List Char) (n : ℕ) : after .debug term s (b :: bs) r n =
      .throw ⟨[], s.out ++ shown (some k) b, s.asked + 1⟩ .writeError := by
  rw [after]; simp [h]

theorem full_iff (b : List Char) : Buf.full Console.cap b = true ↔ b.length = 4095 := by
  simp [Buf.full, Console.cap]

/-- What a pass does if the buffer becomes full. -/
theorem flushFull_full (m : Mode) (term : ℕ → Answer) (s : St) (n : ℕ) (h : s.buf.length = 4095) :
    flushFull m term s n = match term s.asked, m with
      | some k, .debug => .throw ⟨[], s.out ++ shown (some k) s.buf, s.asked + 1⟩ .writeError
      | a, _ => .ok ⟨[], s.out ++ shown a s.buf, s.asked + 1⟩ n := by
  unfold flushFull
  rw [if_pos ((full_iff _).2 h)]
  unfold flush shown
  rcases term s.asked with _ | k <;> cases m <;> rfl

theorem flushFull_not (m : Mode) (term : ℕ → Answer) (s : St) (n : ℕ) (h : s.buf.length ≠ 4095) :
    flushFull m term s n = .ok s n := by
  unfold flushFull
  rw [if_neg (fun h' => h ((full_iff _).1 h'))]

/-- What the loop has still to do. -/
def toCall : Ret → Call
  | .ok s n => .returned s n
  | .throw s e => .thrown s e
  | .endless => .bad

theorem passes_end (m : Mode) (term : ℕ → Answer) (cs : List Char) (k : ℕ) (s : St) (w : ℕ) (h : cs.length ≤ w) :
    passes m term cs k s w = .returned s cs.length := by
  cases k <;> rw [passes, if_neg (by omega)]

theorem passes_eq (m : Mode) (term : ℕ → Answer) (cs : List Char) (hc : cs.length < 4294967296) :
    ∀ (k : ℕ) (s : St) (w : ℕ), w ≤ cs.length → cs.length - w < k → s.buf.length < 4095 →
    passes m term cs k s w =
      toCall (after m term s (blocks 4095 (s.buf ++ cs.drop w)) (rest 4095 (s.buf ++ cs.drop w)) cs.length) := by
  intro k
  induction k with
  | zero => intro s w hw hk; omega
  | succ k ih =>
    intro s w hw hk hb
    by_cases he : w = cs.length
    · subst he
      rw [passes_end _ _ _ _ _ _ (le_refl _), List.drop_length, List.append_nil, (blocks_short hb).1,
        (blocks_short hb).2, after, toCall]
    · have hlt : w < cs.length := by omega
      have hlen : (s.buf ++ cs.drop w).length = s.buf.length + (cs.length - w) := by simp
      rw [passes, if_pos hlt]
      simp only [pass, Buf.append]
      rw [if_neg (by simp only [Console.cap]; omega), List.length_drop]
      by_cases hr : cs.length - w ≤ Console.cap - s.buf.length
      · rw [if_pos hr]
        have hw' : (w + (cs.length - w)) % 4294967296 = cs.length := by
          rw [Nat.mod_eq_of_lt (by omega)]; omega
        simp only [hw']
        simp only [Console.cap] at hr
        by_cases hf : (s.buf ++ cs.drop w).length = 4095
        · rw [flushFull_full _ _ _ _ hf, (blocks_full hf).1, (blocks_full hf).2]
          rcases ht : term s.asked with _ | a
          · rw [after_none ht]
            simp only [after, toCall]
            rw [passes_end _ _ _ _ _ _ (le_refl _)]
          · cases m
            · rw [after_debug ht]; simp only [toCall]
            · rw [after_release, ht]
              simp only [after, toCall]
              rw [passes_end _ _ _ _ _ _ (le_refl _)]
        · rw [flushFull_not _ _ _ _ hf, (blocks_short (n := 4095) (by omega)).1,
            (blocks_short (n := 4095) (by omega)).2]
          simp only [after, toCall]
          rw [passes_end _ _ _ _ _ _ (le_refl _)]
      · rw [if_neg hr]
        simp only [Console.cap] at hr ⊢
        have hw' : (w + (4095 - s.buf.length)) % 4294967296 = w + (4095 - s.buf.length) :=
          Nat.mod_eq_of_lt (by omega)
        simp only [hw']
        have hf : (s.buf ++ (cs.drop w).take (4095 - s.buf.length)).length = 4095 := by
          rw [List.length_append, List.length_take, List.length_drop]; omega
        have ht1 : (s.buf ++ cs.drop w).take 4095 = s.buf ++ (cs.drop w).take (4095 - s.buf.length) := by
          rw [List.take_append, List.take_of_length_le (by omega)]
        have ht2 : (s.buf ++ cs.drop w).drop 4095 = cs.drop (w + (4095 - s.buf.length)) := by
          rw [List.drop_append, List.drop_eq_nil_of_le (by omega), List.nil_append, List.drop_drop]
        rw [flushFull_full _ _ _ _ hf, (blocks_long (n := 4095) (by norm_num) (by omega)).1,
          (blocks_long (n := 4095) (by norm_num) (by omega)).2, ht1, ht2]
        rcases ht : term s.asked with _ | a
        · rw [after_none ht]
          simp only []
          rw [ih _ _ (by omega) (by omega) (by simp)]
          simp only [List.nil_append]
        · cases m
          · rw [after_debug ht]; simp only [toCall]
          · rw [after_release, ht]
            simp only []
            rw [ih _ _ (by omega) (by omega) (by simp)]
            simp only [List.nil_append]

theorem after_ne (m : Mode) (term : ℕ → Answer) (n : ℕ) (r : List Char) :
    ∀ (bs : List (List Char)) (s : St), after m term s bs r n ≠ .endless := by
  intro bs
  induction bs with
  | nil => intro s; simp [after]
  | cons b bs ih =>
    intro s
    rcases ht : term s.asked with _ | k
    · rw [after_none ht]; exact ih _
    · cases m
      · rw [after_debug ht]; simp
      · rw [after_release]; exact ih _

theorem puts_eq (m : Mode) (term : ℕ → Answer) (s : St) (cs : List Char) (hc : cs.length < 4294967296)
    (hb : s.buf.length < 4095) :
    puts m term s cs = after m term s (blocks 4095 (s.buf ++ cs)) (rest 4095 (s.buf ++ cs)) cs.length := by
  unfold puts
  rw [passes_eq m term cs hc _ s 0 (Nat.zero_le _) (by omega) hb, List.drop_zero]
  have := after_ne m term cs.length (rest 4095 (s.buf ++ cs)) (blocks 4095 (s.buf ++ cs)) s
  revert this
  rcases after m term s (blocks 4095 (s.buf ++ cs)) (rest 4095 (s.buf ++ cs)) cs.length with ⟨_, _⟩ | ⟨_, _⟩ | _ <;>
    intro h <;> simp [toCall] at h ⊢

/-- All answers accept. -/
theorem after_accept (m : Mode) (term : ℕ → Answer) (n : ℕ) (r : List Char) :
    ∀ (bs : List (List Char)) (s : St), (∀ i < bs.length, term (s.asked + i) = none) → bs ≠ [] →
    after m term s bs r n = .ok ⟨r, s.out ++ shownFrom term s.asked bs, s.asked + bs.length⟩ n := by
  intro bs
  induction bs with
  | nil => intro s _ h; exact absurd rfl h
  | cons b bs ih =>
    intro s h _
    have h0 : term s.asked = none := h 0 (by simp)
    rw [after_none h0]
    rcases bs with _ | ⟨b', bs⟩
    · simp [after, shownFrom, h0]
    · rw [ih _ (fun i hi => by
        have := h (i + 1) (by simpa using hi)
        rw [← this]; congr 1; simp only []; omega) (by simp)]
      simp only [shownFrom, h0, List.append_assoc, List.length_cons]
      congr 2
      omega

theorem after_rel (term : ℕ → Answer) (n : ℕ) (r : List Char) :
    ∀ (bs : List (List Char)) (s : St),
    after .release term s bs r n = .ok ⟨r, s.out ++ shownFrom term s.asked bs, s.asked + bs.length⟩ n := by
  intro bs
  induction bs with
  | nil => intro s; simp [after, shownFrom]
  | cons b bs ih =>
    intro s
    rw [after_release, ih]
    simp only [shownFrom, List.append_assoc, List.length_cons]
    congr 2
    omega

theorem after_deb (term : ℕ → Answer) (n : ℕ) (r : List Char) :
    ∀ (bs : List (List Char)) (s : St) (j : ℕ), j < bs.length → (∀ i < j, term (s.asked + i) = none) →
    (term (s.asked + j)).isSome →
    after .debug term s bs r n =
      .throw ⟨[], s.out ++ shownFrom term s.asked (bs.take (j + 1)), s.asked + j + 1⟩ .writeError := by
  intro bs
  induction bs with
  | nil => intro s j h; simp at h
  | cons b bs ih =>
    intro s j hj hb hs
    rcases j with _ | j
    · obtain ⟨k, hk⟩ := Option.isSome_iff_exists.1 hs
      simp only [Nat.add_zero] at hk
      rw [after_debug hk]
      simp [shownFrom, hk]
    · have h0 : term s.asked = none := hb 0 (by omega)
      rw [after_none h0, ih _ j (by simpa using hj) (fun i hi => by
        have := hb (i + 1) (by omega)
        rw [← this]; congr 1; simp only []; omega) (by
        have e : s.asked + 1 + j = s.asked + (j + 1) := by omega
        simp only [e]; exact hs)]
      simp only [shownFrom, h0, List.append_assoc, List.take_succ_cons]
      congr 2
      omega

theorem takeWhile_all {l : List Char} (h : '\x00' ∉ l) : l.takeWhile (· ≠ '\x00') = l := by
  rw [List.takeWhile_eq_self_iff]
  intro c hc
  simp only [decide_eq_true_eq, ne_eq]
  rintro rfl; exact h hc

theorem join_blocks : ∀ (k : ℕ) (l : List Char), l.length ≤ k →
    (blocks 4095 l).flatten ++ rest 4095 l = l ∧ (rest 4095 l).length < 4095 ∧
    (∀ b ∈ blocks 4095 l, b.length = 4095 ∧ ∀ c ∈ b, c ∈ l) := by
  intro k
  induction k with
  | zero =>
    intro l h
    have hl : l.length < 4095 := by omega
    rw [(blocks_short hl).1, (blocks_short hl).2]
    exact ⟨by simp, hl, by simp⟩
  | succ k ih =>
    intro l h
    by_cases hl : l.length < 4095
    · rw [(blocks_short hl).1, (blocks_short hl).2]
      exact ⟨by simp, hl, by simp⟩
    · have hl' : 4095 ≤ l.length := by omega
      rw [(blocks_long (by norm_num) hl').1, (blocks_long (by norm_num) hl').2]
      obtain ⟨h1, h2, h3⟩ := ih (l.drop 4095) (by rw [List.length_drop]; omega)
      refine ⟨?_, h2, ?_⟩
      · rw [List.flatten_cons, List.append_assoc, h1, List.take_append_drop]
      · intro b hb
        rcases List.mem_cons.1 hb with rfl | hb
        · refine ⟨by rw [List.length_take]; omega, fun c hc => List.mem_of_mem_take hc⟩
        · exact ⟨(h3 b hb).1, fun c hc => List.mem_of_mem_drop ((h3 b hb).2 c hc)⟩

theorem shown_accept (term : ℕ → Answer) : ∀ (bs : List (List Char)) (i : ℕ),
    (∀ j < bs.length, term (i + j) = none) → (∀ b ∈ bs, '\x00' ∉ b) → shownFrom term i bs = bs.flatten := by
  intro bs
  induction bs with
  | nil => intro i _ _; rfl
  | cons b bs ih =>
    intro i h hb
    have h0 : term i = none := h 0 (by simp)
    rw [shownFrom, h0, ih (i + 1) (fun j hj => by
      have := h (j + 1) (by simpa using hj)
      rw [← this]; congr 1; omega) (fun b' hb' => hb b' (by simp [hb']))]
    unfold shown
    simp only []
    rw [takeWhile_all (hb b (by simp)), List.flatten_cons]

theorem put_eq (m : Mode) (term : ℕ → Answer) (s : St) (c : Char) (hb : s.buf.length < 4095) :
    put m term s c = puts m term s [c] := by
  rw [puts_eq m term s [c] (by simp) hb]
  unfold put Buf.append1
  rw [if_neg (by rw [full_iff]; omega), if_pos (by simp only [Console.cap]; omega)]
  simp only []
  by_cases hf : (s.buf ++ [c]).length = 4095
  · rw [flushFull_full _ _ _ _ hf, (blocks_full hf).1, (blocks_full hf).2]
    rcases ht : term s.asked with _ | a
    · rw [after_none ht]; simp [after]
    · cases m
      · rw [after_debug ht]
      · rw [after_release, ht]; simp [after]
  · have hl : (s.buf ++ [c]).length < 4095 := by
      rw [List.length_append, List.length_singleton] at hf ⊢; omega
    rw [flushFull_not _ _ _ _ hf, (blocks_short hl).1, (blocks_short hl).2]
    simp [after]

end Ecl.Props.C135

namespace Ecl.Props.C135
open ConsoleFailure ConsoleBlocks

/-- A pass over more than 2^32 bytes. -/
theorem pass_ok (m : Mode) (term : ℕ → Answer) (hm : m = .release ∨ ∀ i, term i = none) (cs : List Char)
    (hc : 4294967296 ≤ cs.length) (s : St) (w : ℕ) (hw : w < 4294967296) (hb : s.buf.length < 4095) :
    ∃ s' w', pass m term cs s w = .ok s' w' ∧ w' < 4294967296 ∧ s'.buf.length < 4095 := by
  unfold pass Buf.append
  rw [if_neg (by simp only [Console.cap]; omega)]
  have key : ∀ (b : List Char) (n : ℕ), b.length ≤ 4095 → ∃ s' w',
      flushFull m term ⟨b, s.out, s.asked⟩ ((w + n) % 4294967296) = .ok s' w' ∧ w' < 4294967296 ∧
        s'.buf.length < 4095 := by
    intro b n hl
    by_cases hf : b.length = 4095
    · rw [flushFull_full _ _ _ _ hf]
      rcases hm with rfl | hm
      · rcases ht : term s.asked with _ | k
        · simp only [ht]
          exact ⟨_, _, rfl, Nat.mod_lt _ (by norm_num), by simp⟩
        · simp only [ht]
          exact ⟨_, _, rfl, Nat.mod_lt _ (by norm_num), by simp⟩
      · simp only [hm]
        exact ⟨_, _, rfl, Nat.mod_lt _ (by norm_num), by simp⟩
    · rw [flushFull_not _ _ _ _ hf]
      exact ⟨_, _, rfl, Nat.mod_lt _ (by norm_num), by simp only []; omega⟩
  by_cases hr : (cs.drop w).length ≤ Console.cap - s.buf.length
  · simp only [if_pos hr]
    exact key _ _ (by rw [List.length_append]; simp only [Console.cap] at hr; omega)
  · simp only [if_neg hr]
    refine key _ _ (by rw [List.length_append, List.length_take]; simp only [Console.cap]; omega)

theorem running (m : Mode) (term : ℕ → Answer) (hm : m = .release ∨ ∀ i, term i = none) (cs : List Char)
    (hc : 4294967296 ≤ cs.length) : ∀ (k : ℕ) (s : St) (w : ℕ), w < 4294967296 → s.buf.length < 4095 →
    ∃ s' w', passes m term cs k s w = .running s' w' := by
  intro k
  induction k with
  | zero => intro s w hw _; exact ⟨s, w, by rw [passes, if_pos (by omega)]⟩
  | succ k ih =>
    intro s w hw hb
    obtain ⟨s', w', h1, h2, h3⟩ := pass_ok m term hm cs hc s w hw hb
    rw [passes, if_pos (by omega), h1]
    exact ih s' w' h2 h3

/-- The state between two passes. -/
structure Fit (s : St) (w : ℕ) : Prop where
  below : w < 4294967296
  room : s.buf.length < 4095
  clean : '\x00' ∉ s.buf

/-- A pass that does not reach the end of the bytes empties a full buffer. -/
theorem pass_full (m : Mode) (term : ℕ → Answer) (hm : ∀ i, term i = none) (cs : List Char) (h0 : '\x00' ∉ cs)
    (s : St) (w : ℕ) (h : Fit s w) (hr : 4095 < cs.length - w + s.buf.length) :
    ∃ s' w', pass m term cs s w = .ok s' w' ∧ Fit s' w' ∧ s.out.length + 1 ≤ s'.out.length := by
  have hb := h.room
  unfold pass Buf.append
  rw [if_neg (by simp only [Console.cap]; omega), List.length_drop,
    if_neg (by simp only [Console.cap]; omega)]
  have hf : (s.buf ++ (cs.drop w).take (Console.cap - s.buf.length)).length = 4095 := by
    rw [List.length_append, List.length_take, List.length_drop]; simp only [Console.cap]; omega
  simp only []
  rw [flushFull_full _ _ _ _ hf]
  simp only [hm]
  refine ⟨_, _, rfl, ⟨Nat.mod_lt _ (by norm_num), by simp, by simp⟩, ?_⟩
  have hn : '\x00' ∉ s.buf ++ (cs.drop w).take (Console.cap - s.buf.length) := by
    intro hx; rcases List.mem_append.1 hx with hx | hx
    · exact h.clean hx
    · exact h0 (List.mem_of_mem_drop (List.mem_of_mem_take hx))
  unfold shown
  simp only []
  rw [takeWhile_all hn, List.length_append, hf]
  omega

/-- A pass that reaches the end starts again at the beginning. -/
theorem pass_last (m : Mode) (term : ℕ → Answer) (hm : ∀ i, term i = none) (cs : List Char) (h0 : '\x00' ∉ cs)
    (hc : 4294967296 ≤ cs.length) (s : St) (w : ℕ) (h : Fit s w) (hr : cs.length - w + s.buf.length ≤ 4095) :
    ∃ s' w', pass m term cs s w = .ok s' w' ∧ Fit s' w' ∧ s.out.length ≤ s'.out.length ∧
      4095 < cs.length - w' + s'.buf.length := by
  have hb := h.room
  have hw := h.below
  unfold pass Buf.append
  rw [if_neg (by simp only [Console.cap]; omega), List.length_drop,
    if_pos (by simp only [Console.cap]; omega)]
  simp only []
  have hw' : (w + (cs.length - w)) % 4294967296 < 4095 := by omega
  have hn : '\x00' ∉ s.buf ++ cs.drop w := by
    intro hx; rcases List.mem_append.1 hx with hx | hx
    · exact h.clean hx
    · exact h0 (List.mem_of_mem_drop hx)
  by_cases hf : (s.buf ++ cs.drop w).length = 4095
  · rw [flushFull_full _ _ _ _ hf]
    simp only [hm]
    refine ⟨_, _, rfl, ⟨Nat.mod_lt _ (by norm_num), by simp, by simp⟩, ?_, ?_⟩
    · simp only [List.length_append]; omega
    · simp only [List.length_nil]; omega
  · rw [flushFull_not _ _ _ _ hf]
    refine ⟨_, _, rfl, ⟨Nat.mod_lt _ (by norm_num), ?_, hn⟩, ?_, ?_⟩
    · simp only [List.length_append, List.length_drop] at hf ⊢; omega
    · exact le_refl _
    · simp only [List.length_append]; omega

theorem two (m : Mode) (term : ℕ → Answer) (hm : ∀ i, term i = none) (cs : List Char) (h0 : '\x00' ∉ cs)
    (hc : 4294967296 ≤ cs.length) (s : St) (w : ℕ) (h : Fit s w) :
    ∃ k s' w', (∀ j, passes m term cs (k + j) s w = passes m term cs j s' w') ∧ Fit s' w' ∧
      s.out.length + 1 ≤ s'.out.length := by
  have hw := h.below
  by_cases hr : 4095 < cs.length - w + s.buf.length
  · obtain ⟨s', w', h1, h2, h3⟩ := pass_full m term hm cs h0 s w h hr
    refine ⟨1, s', w', fun j => ?_, h2, h3⟩
    rw [Nat.add_comm, passes, if_pos (by omega), h1]
  · obtain ⟨s', w', h1, h2, h3, h4⟩ := pass_last m term hm cs h0 hc s w h (by omega)
    obtain ⟨s'', w'', g1, g2, g3⟩ := pass_full m term hm cs h0 s' w' h2 h4
    have hw' := h2.below
    refine ⟨2, s'', w'', fun j => ?_, g2, by omega⟩
    rw [show 2 + j = j + 1 + 1 by omega, passes, if_pos (by omega), h1]
    simp only []
    rw [passes, if_pos (by omega), g1]

theorem grows (m : Mode) (term : ℕ → Answer) (hm : ∀ i, term i = none) (cs : List Char) (h0 : '\x00' ∉ cs)
    (hc : 4294967296 ≤ cs.length) : ∀ (n : ℕ) (s : St) (w : ℕ), Fit s w →
    ∃ k s' w', passes m term cs k s w = .running s' w' ∧ n ≤ s'.out.length := by
  intro n
  suffices ∀ (s : St) (w : ℕ), Fit s w →
      ∃ k s' w', passes m term cs k s w = .running s' w' ∧ s.out.length + n ≤ s'.out.length by
    intro s w h
    obtain ⟨k, s', w', h1, h2⟩ := this s w h
    exact ⟨k, s', w', h1, by omega⟩
  induction n with
  | zero => intro s w h; exact ⟨0, s, w, by rw [passes, if_pos (by have := h.below; omega)], by omega⟩
  | succ n ih =>
    intro s w h
    obtain ⟨k, s', w', h1, h2, h3⟩ := two m term hm cs h0 hc s w h
    obtain ⟨j, s'', w'', g1, g2⟩ := ih s' w' h2
    exact ⟨k + j, s'', w'', by rw [h1, g1], by omega⟩

/-! ### The model without failures -/

theorem loop_eq : ∀ (f : ℕ) (s : Console) (l : List Char) (i : ℕ), l.length < f → s.buf.length < 4095 →
    Console.loop f s l =
      .ok ⟨rest 4095 (s.buf ++ l), s.out ++ shownFrom (fun _ => none) i (blocks 4095 (s.buf ++ l))⟩ := by
  intro f
  induction f with
  | zero => intro s l i h; omega
  | succ f ih =>
    intro s l i hf hb
    rcases l with _ | ⟨c, l⟩
    · rw [Console.loop, List.append_nil, (blocks_short hb).1, (blocks_short hb).2]
      simp [shownFrom]
    · generalize hl : c :: l = cs at hf ⊢
      have hpos : 0 < cs.length := by rw [← hl]; simp
      have hstep : Console.loop (f + 1) s cs = (do
          let r ← Buf.append Console.cap s.buf cs
          let s := { s with buf := r.1 }
          Console.loop f (if Buf.full Console.cap s.buf then Console.flush s else s) (cs.drop r.2)) := by
        rw [← hl, Console.loop]
      rw [hstep]
      unfold Buf.append
      rw [if_neg (by simp only [Console.cap]; omega)]
      have hend : ∀ (s : Console), Console.loop f s [] = .ok s := by intro s; cases f <;> rfl
      have hlen : (s.buf ++ cs).length = s.buf.length + cs.length := by simp
      by_cases hr : cs.length ≤ Console.cap - s.buf.length
      · simp only [if_pos hr, Outcome.bind_ok, List.drop_length, hend]
        simp only [Console.cap] at hr
        by_cases hfu : (s.buf ++ cs).length = 4095
        · rw [if_pos ((full_iff _).2 hfu), (blocks_full hfu).1, (blocks_full hfu).2]
          simp [Console.flush, shownFrom, shown]
        · rw [if_neg (fun h => hfu ((full_iff _).1 h)), (blocks_short (n := 4095) (by omega)).1,
            (blocks_short (n := 4095) (by omega)).2]
          simp [shownFrom]
      · simp only [if_neg hr, Outcome.bind_ok]
        simp only [Console.cap] at hr ⊢
        have hfu : (s.buf ++ cs.take (4095 - s.buf.length)).length = 4095 := by
          rw [List.length_append, List.length_take]; omega
        have ht1 : (s.buf ++ cs).take 4095 = s.buf ++ cs.take (4095 - s.buf.length) := by
          rw [List.take_append, List.take_of_length_le (by omega)]
        have ht2 : (s.buf ++ cs).drop 4095 = cs.drop (4095 - s.buf.length) := by
          rw [List.drop_append, List.drop_eq_nil_of_le (by omega), List.nil_append]
        have hfull : Buf.full 4095 (s.buf ++ cs.take (4095 - s.buf.length)) = true := (full_iff _).2 hfu
        simp only [hfull, if_true]
        rw [(blocks_long (n := 4095) (by norm_num) (by omega)).1, (blocks_long (n := 4095) (by norm_num) (by omega)).2, ht1, ht2,
          ih _ _ (i + 1) (by rw [List.length_drop]; omega) (by simp [Console.flush])]
        simp [Console.flush, shownFrom, shown]

end Ecl.Props.C135
