import Verif.Model.Usage
import Verif.Spec.LineBreaks
import Mathlib.Data.List.Basic

/-! # Lemmas about the help texts -/
set_option autoImplicit false
set_option linter.unusedSimpArgs false

namespace Ecl.Usage
open Ecl.CmdLine (Str Arg)
open Ecl.Spec

theorem isBreak_iff (c : Char) : isBreak c = true ↔ c ∈ breaks := by
  simp [isBreak, breaks, or_assoc]

theorem charAt_break {s : Str} {i : Nat} (h : isBreak (charAt s i) = true) :
    ∃ h : i < s.length, s[i] ∈ breaks := by
  by_cases hi : i < s.length
  · refine ⟨hi, ?_⟩
    rw [charAt, List.getElem?_eq_getElem hi] at h
    exact (isBreak_iff _).1 h
  · rw [charAt, List.getElem?_eq_none (by omega)] at h
    exact absurd h (by decide)

theorem charAt_not {s : Str} {i : Nat} (h : i < s.length) (hb : s[i] ∉ breaks) :
    isBreak (charAt s i) = false := by
  rw [charAt, List.getElem?_eq_getElem h]
  rw [← isBreak_iff] at hb
  simpa using hb

/-- When the loop reads before the text. -/
theorem backUp_ub (first : Bool) (rest : Str) (n : Nat) :
    backUp first rest n = .ub ↔ first = true ∧ ∀ j ≤ n, isBreak (charAt rest j) = false := by
  induction n with
  | zero =>
    unfold backUp
    cases h : isBreak (charAt rest 0) <;> cases first <;> simp [h]
  | succ n ih =>
    unfold backUp
    cases h : isBreak (charAt rest (n + 1)) with
    | true =>
      simp only [if_true]
      constructor
      · intro h'; cases h'
      · rintro ⟨-, h'⟩
        rw [h' (n + 1) (Nat.le_refl _)] at h
        cases h
    | false =>
      simp only [Bool.false_eq_true, if_false]
      rw [ih]
      constructor
      · rintro ⟨h1, h2⟩
        refine ⟨h1, fun j hj => ?_⟩
        rcases Nat.lt_or_ge j (n + 1) with h3 | h3
        · exact h2 j (by omega)
        · rw [show j = n + 1 by omega]; exact h
      · rintro ⟨h1, h2⟩
        exact ⟨h1, fun j hj => h2 j (by omega)⟩

theorem backUp_ok (first : Bool) (rest : Str) (n : Nat)
    (hb : first = false ∨ ∃ j ≤ n, isBreak (charAt rest j) = true) :
    ∃ m ≤ n, backUp first rest n = .ok m ∧ (0 < m → isBreak (charAt rest m) = true) ∧
      (m = 0 → ∀ j, 0 < j → j ≤ n → isBreak (charAt rest j) = false) := by
  induction n with
  | zero =>
    refine ⟨0, Nat.le_refl _, ?_, by simp, by intros; omega⟩
    unfold backUp
    rcases hb with rfl | ⟨j, hj, h⟩
    · simp
    · rw [show j = 0 by omega] at h
      simp [h]
  | succ n ih =>
    unfold backUp
    cases h : isBreak (charAt rest (n + 1)) with
    | true => exact ⟨n + 1, Nat.le_refl _, by simp, fun _ => h, by omega⟩
    | false =>
      obtain ⟨m, hm, h1, h2, h3⟩ := ih (by
        rcases hb with rfl | ⟨j, hj, h'⟩
        · exact .inl rfl
        · refine .inr ⟨j, ?_, h'⟩
          rcases Nat.lt_or_ge j (n + 1) with h3 | h3
          · omega
          · rw [show j = n + 1 by omega, h] at h'; cases h')
      refine ⟨m, by omega, by simpa using h1, h2, fun hm j hj hjn => ?_⟩
      rcases Nat.lt_or_ge j (n + 1) with h4 | h4
      · exact h3 hm j hj (by omega)
      · rw [show j = n + 1 by omega]; exact h

theorem cutAtNewline_spec (rest : Str) (n : Nat) (h0 : 0 < n) (hn : n ≤ rest.length) :
    0 < cutAtNewline rest n ∧ cutAtNewline rest n ≤ n ∧
      '\n' ∉ (rest.take (cutAtNewline rest n)).dropLast ∧
      (cutAtNewline rest n = n ∨ (rest.take (cutAtNewline rest n)).getLast? = some '\n') := by
  unfold cutAtNewline
  cases h : (rest.take n).findIdx? (· == '\n') with
  | none =>
    refine ⟨h0, Nat.le_refl _, fun hm => ?_, .inl rfl⟩
    rw [List.findIdx?_eq_none_iff] at h
    have := h _ ((List.dropLast_sublist _).subset hm)
    simp at this
  | some i =>
    rw [List.findIdx?_eq_some_iff_getElem] at h
    obtain ⟨hi, h1, h2⟩ := h
    have hi' : i < n := by simp at hi; omega
    have hir : i < rest.length := by omega
    simp only [List.getElem_take] at h1 h2
    have e : rest.take (i + 1) = rest.take i ++ [rest[i]] := by rw [List.take_succ_eq_append_getElem hir]
    refine ⟨Nat.succ_pos i, hi', ?_, .inr ?_⟩
    · show '\n' ∉ (rest.take (i + 1)).dropLast
      rw [e, List.dropLast_concat]
      intro hm
      obtain ⟨j, hj, hj'⟩ := List.mem_iff_getElem.1 hm
      simp only [List.length_take, List.getElem_take] at hj hj'
      have := h2 j (by omega)
      rw [hj'] at this
      simp at this
    · show (rest.take (i + 1)).getLast? = some '\n'
      rw [e, List.getLast?_concat]
      simpa using h1

theorem lineLength_ok (first : Bool) (allowed : Nat) (rest : Str) (ha : 0 < allowed) (hr : rest ≠ [])
    (hb : first = false ∨ rest.length < allowed ∨ ∃ j ≤ allowed, isBreak (charAt rest j) = true) :
    ∃ n, lineLength first allowed rest = .ok n ∧ 0 < n ∧ n ≤ rest.length ∧ n ≤ allowed ∧
      '\n' ∉ (rest.take n).dropLast ∧ MayEnd allowed (rest.take n) (rest.drop n) := by
  have hl : 0 < rest.length := List.length_pos_iff.2 hr
  unfold lineLength
  by_cases hlen : allowed ≤ rest.length
  · rw [if_pos (by omega)]
    obtain ⟨m, hm, h1, h2, h3⟩ := backUp_ok first rest allowed (by
      rcases hb with h | h | h
      · exact .inl h
      · omega
      · exact .inr h)
    rw [h1, Outcome.bind_ok]
    dsimp only
    by_cases h0 : m = 0
    · rw [if_pos h0]
      obtain ⟨c1, c2, c3, c4⟩ := cutAtNewline_spec rest allowed ha hlen
      refine ⟨_, rfl, c1, by omega, c2, c3, ?_⟩
      rcases c4 with c4 | c4
      · rw [c4]
        refine .inr (.inr (.inr ⟨by simp [hlen], fun c hc hb => ?_⟩))
        obtain ⟨j, hj, hj'⟩ := List.mem_iff_getElem.1 hc
        simp only [List.length_tail, List.length_take] at hj
        rw [List.getElem_tail, List.getElem_take] at hj'
        have := h3 h0 (j + 1) (by omega) (by omega)
        have hx : j + 1 < rest.length := by omega
        rw [charAt, List.getElem?_eq_getElem hx, Option.getD_some, hj'] at this
        rw [(isBreak_iff c).2 hb] at this
        cases this
      · exact .inr (.inl c4)
    · rw [if_neg h0]
      obtain ⟨hx, hbr⟩ := charAt_break (h2 (by omega))
      obtain ⟨c1, c2, c3, c4⟩ := cutAtNewline_spec rest m (by omega) (by omega)
      refine ⟨_, rfl, c1, by omega, by omega, c3, ?_⟩
      rcases c4 with c4 | c4
      · rw [c4]
        refine .inr (.inr (.inl ⟨rest[m], ?_, hbr⟩))
        rw [List.head?_drop, List.getElem?_eq_getElem hx]
      · exact .inr (.inl c4)
  · rw [if_neg (by omega), Outcome.bind_ok]
    dsimp only
    rw [if_neg (by omega), show min rest.length allowed = rest.length by omega]
    obtain ⟨c1, c2, c3, c4⟩ := cutAtNewline_spec rest rest.length hl (Nat.le_refl _)
    refine ⟨_, rfl, c1, c2, by omega, c3, ?_⟩
    rcases c4 with c4 | c4
    · rw [c4]
      exact .inl (by simp)
    · exact .inr (.inl c4)

theorem lines_nil (offset fuel : Nat) (first : Bool) (indent allowed : Nat) :
    lines offset fuel first indent allowed [] = .ok (some []) := by
  unfold lines
  simp

theorem lines_ub (offset fuel : Nat) (indent allowed : Nat) (rest : Str) (hr : rest ≠ [])
    (hl : allowed ≤ rest.length) (hb : ∀ j ≤ allowed, isBreak (charAt rest j) = false) :
    lines offset (fuel + 1) true indent allowed rest = .ub := by
  unfold lines
  rw [if_neg hr]
  simp only
  unfold lineLength
  rw [if_pos (by omega), (backUp_ub true rest allowed).2 ⟨rfl, hb⟩]
  rfl

theorem lines_ok (offset width : Nat) (fuel : Nat) (first : Bool) (indent : Nat) (rest : Str)
    (hw : (if first then indent + offset else indent) < width) (hf : rest.length ≤ fuel)
    (hb : first = false ∨ rest.length < width - indent ∨
      ∃ j ≤ width - indent, isBreak (charAt rest j) = true) :
    ∃ ls, lines offset fuel first indent (width - indent) rest = .ok (some ls) ∧
      LaidOut width indent (if first then indent + offset else indent) rest ls := by
  induction fuel generalizing first indent rest with
  | zero =>
    have : rest = [] := List.length_eq_zero_iff.1 (by omega)
    subst this
    exact ⟨[], lines_nil _ _ _ _ _, .nil _ _⟩
  | succ fuel ih =>
    by_cases hr : rest = []
    · subst hr
      exact ⟨[], lines_nil _ _ _ _ _, .nil _ _⟩
    · have hi : indent < width := by split at hw <;> omega
      obtain ⟨n, h1, h2, h3, h4, h5, h6⟩ := lineLength_ok first (width - indent) rest (by omega) hr hb
      have hsplit : (rest.drop n).takeWhile (· == ' ') ++ (rest.drop n).dropWhile (· == ' ') = rest.drop n :=
        List.takeWhile_append_dropWhile
      have hle : ((rest.drop n).dropWhile (· == ' ')).length ≤ fuel := by
        have := congrArg List.length hsplit
        simp only [List.length_append, List.length_drop] at this
        omega
      have hrec : ∃ ls, lines offset fuel false (if first then indent + offset else indent)
          (if first then width - indent - offset else width - indent) ((rest.drop n).dropWhile (· == ' ')) =
            .ok (some ls) ∧ LaidOut width (if first then indent + offset else indent)
            (if first then indent + offset else indent) ((rest.drop n).dropWhile (· == ' ')) ls := by
        have := ih false (if first then indent + offset else indent) ((rest.drop n).dropWhile (· == ' '))
          (by simpa using hw) hle (.inl rfl)
        simp only [Bool.false_eq_true, if_false] at this
        rwa [show width - (if first then indent + offset else indent) =
          (if first then width - indent - offset else width - indent) by split <;> omega] at this
      obtain ⟨ls, e, hls⟩ := hrec
      refine ⟨(List.replicate indent ' ' ++ rest.take n) :: ls, ?_, ?_⟩
      · unfold lines
        rw [if_neg hr]
        simp only
        rw [h1, Outcome.bind_ok, e, Outcome.bind_ok]
        rfl
      · have := LaidOut.cons (width := width) indent (if first then indent + offset else indent)
          (rest.take n) ((rest.drop n).takeWhile (· == ' ')) ((rest.drop n).dropWhile (· == ' ')) ls
          (by intro h; have := congrArg List.length h; rw [List.length_take, List.length_nil] at this; omega) h5
          (by rw [List.length_take]; omega)
          (by intro c hc; simpa using List.all_eq_true.1 List.all_takeWhile c hc)
          (by rw [hsplit]; exact h6) hls
        rwa [List.append_assoc, hsplit, List.take_append_drop] at this

/-! ### Consequences of a layout -/

theorem LaidOut.filter {width indent indent' : Nat} {text : List Char} {ls : List (List Char)}
    (h : LaidOut width indent indent' text ls) :
    (ls.flatten).filter (· ≠ ' ') = text.filter (· ≠ ' ') := by
  induction h with
  | nil => rfl
  | cons indent indent' piece blanks rest lines h1 h2 h3 h4 h5 h6 ih =>
    have hb : blanks.filter (· ≠ ' ') = [] := by
      rw [List.filter_eq_nil_iff]
      intro c hc
      simp [h4 c hc]
    rw [List.flatten_cons, List.filter_append, List.filter_append, List.filter_append,
      List.filter_append, hb, ih]
    simp

theorem LaidOut.width {width indent indent' : Nat} {text : List Char} {ls : List (List Char)}
    (h : LaidOut width indent indent' text ls) : ∀ l ∈ ls, l.length ≤ width := by
  induction h with
  | nil => simp
  | cons indent indent' piece blanks rest lines h1 h2 h3 h4 h5 h6 ih =>
    intro l hl
    rcases List.mem_cons.1 hl with rfl | hl
    · simpa using h3
    · exact ih l hl

/-! ### DocBook -/

theorem findIdx?_split {s : Str} {r : Char} {p : Nat} (h : s.findIdx? (· == r) = some p) :
    ∃ a b, s = a ++ r :: b ∧ s.take p = a ∧ s.drop (p + 1) = b ∧ r ∉ a := by
  rw [List.findIdx?_eq_some_iff_getElem] at h
  obtain ⟨hp, h1, h2⟩ := h
  have hr : s[p] = r := by simpa using h1
  refine ⟨s.take p, s.drop (p + 1), ?_, rfl, rfl, ?_⟩
  · rw [← hr, List.getElem_cons_drop, List.take_append_drop]
  · intro hm
    obtain ⟨j, hj, hj'⟩ := List.mem_iff_getElem.1 hm
    simp only [List.length_take, List.getElem_take] at hj hj'
    have := h2 j (by omega)
    rw [hj'] at this
    simp at this

theorem substitute_eq (r : Char) (x : Str) (hx : r ∉ x) (fuel : Nat) (s : Str) (hf : s.count r ≤ fuel) :
    substitute r x fuel s = some (s.flatMap fun c => if c = r then x else [c]) := by
  induction fuel generalizing s with
  | zero =>
    have hm : r ∉ s := List.count_eq_zero.1 (by omega)
    have hn : s.findIdx? (· == r) = none := by
      rw [List.findIdx?_eq_none_iff]
      intro c hc
      simp only [beq_eq_false_iff_ne]
      rintro rfl
      exact hm hc
    unfold substitute
    rw [hn]
    simp only
    congr 1
    clear hf hn
    induction s with
    | nil => rfl
    | cons c s ih =>
      rw [List.flatMap_cons, if_neg (fun h => hm (by simp [h])), ← ih (fun h => hm (by simp [h]))]
      rfl
  | succ fuel ih =>
    unfold substitute
    cases h : s.findIdx? (· == r) with
    | none =>
      simp only
      congr 1
      rw [List.findIdx?_eq_none_iff] at h
      clear hf
      induction s with
      | nil => rfl
      | cons c s ih =>
        rw [List.flatMap_cons, if_neg (fun h' => by have := h c (by simp); simp [h'] at this),
          ← ih (fun d hd => h d (by simp [hd]))]
        rfl
    | some p =>
      simp only
      obtain ⟨a, b, hs, ha, hb, hna⟩ := findIdx?_split h
      rw [ha, hb, ih]
      · congr 1
        have e : ∀ l : Str, r ∉ l → (l.flatMap fun c => if c = r then x else [c]) = l := by
          intro l hl
          induction l with
          | nil => rfl
          | cons c l ih =>
            rw [List.flatMap_cons, if_neg (fun h => hl (by simp [h])), ih (fun h => hl (by simp [h]))]
            rfl
        conv_rhs => rw [hs]
        rw [List.flatMap_append, List.flatMap_append, List.flatMap_append, List.flatMap_cons, if_pos rfl,
          e x hx, List.append_assoc]
      · rw [hs] at hf
        simp only [List.count_append, List.count_cons_self, List.count_eq_zero.2 hx,
          List.count_eq_zero.2 hna] at hf ⊢
        omega

theorem remove_eq_substitute (r : Char) (fuel : Nat) (s : Str) :
    remove r fuel s = substitute r [] fuel s := by
  induction fuel generalizing s with
  | zero =>
    unfold remove substitute
    split <;> rfl
  | succ fuel ih =>
    unfold remove substitute
    split
    · rfl
    · simp only [List.append_nil]
      exact ih _

end Ecl.Usage
