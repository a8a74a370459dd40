import Verif.Lemmas.CmdLineSwitches
import Verif.Lemmas.Converters

/-! Helper lemmas: rejected command lines, and what a successful parse implies. -/
set_option autoImplicit false
set_option linter.unusedSimpArgs false
set_option linter.unusedVariables false

namespace Ecl.CmdLine
open Spec

variable {V : Type _}

/-- The label of a value argument whose processing fails. -/
theorem loop_err {args : List (Arg V)} (h : Stat args) {a : Arg V} (ha : a ∈ args)
    (hu : a.unlabeled = false) (hv : a.visitor = .none) {t : Str} (ht : GoodLabel a t)
    {more : List Str} {e : Stop} (hr : processArg ' ' false t more.head? a = .error e)
    (count : Nat) : loop [] ' ' false (t :: more) args false count = .error e := by
  have hns := label_nospace h ha hv ht
  have := scan_err hu hr h.apart ha (fun b hb hne hbu => miss_label h ha hb hne hv ht hns hbu)
  unfold loop
  rw [this]

/-- The processing fails because there is no (good) value. -/
theorem process_err {args : List (Arg V)} (h : Stat args) {a : Arg V} (ha : a ∈ args)
    (hu : a.unlabeled = false) (hv : a.visitor = .none)
    (hk : kind a.slot = .value ∨ kind a.slot = .multi)
    (hnot : kind a.slot = .value → a.alreadySet = false) {t : Str} (ht : GoodLabel a t)
    {next : Option Str} {e : Stop}
    (hr : match next with
      | some s => extractValue a s = .error e
      | none => e = .fail .missingValue) :
    processArg ' ' false t next a = .error e := by
  have hns := label_nospace h ha hv ht
  have hm : argMatches a (trimFlag ' ' t).1 = true := by
    rw [trimFlag_none hns]; exact argMatches_self h ha hv ht
  have hb := hasBlanks_false ht.blank
  have htake : takeValue ' ' a (trimFlag ' ' t).2 next = .error e := by
    rw [trimFlag_none hns]
    cases next with
    | none => simp only at hr; simp [takeValue, hr]
    | some s =>
      simp only at hr
      simp only [takeValue, ne_eq, not_true, false_and, if_false, if_true]
      rw [hr]; rfl
  unfold processArg
  rw [hu]
  simp only [Bool.false_eq_true, if_false]
  cases hs : a.slot with
  | value w => simp [processValue, hb, hm, hnot (by rw [hs]; rfl), htake]
  | multi vs => simp [processMulti, hb, hm, htake]
  | switch b => simp [hs, kind] at hk
  | multiSwitch n => simp [hs, kind] at hk

theorem process_dup {args : List (Arg V)} (h : Stat args) {a : Arg V} (ha : a ∈ args)
    (hu : a.unlabeled = false) (hv : a.visitor = .none) (hk : kind a.slot = .value)
    (hset : a.alreadySet = true) {t : Str} (ht : GoodLabel a t) {next : Option Str} :
    processArg ' ' false t next a = .error (.fail .alreadySet) := by
  have hns := label_nospace h ha hv ht
  have hm : argMatches a (trimFlag ' ' t).1 = true := by
    rw [trimFlag_none hns]; exact argMatches_self h ha hv ht
  have hb := hasBlanks_false ht.blank
  unfold processArg
  rw [hu]
  simp only [Bool.false_eq_true, if_false]
  cases hs : a.slot with
  | value w => simp [processValue, hb, hm, hset]
  | multi vs => simp [hs, kind] at hk
  | switch b => simp [hs, kind] at hk
  | multiSwitch n => simp [hs, kind] at hk

/-- A text that nothing matches. -/
structure Unknown (args : List (Arg V)) (t : Str) : Prop where
  labeled : ∀ a ∈ args, a.unlabeled = false
  labels : ∀ a ∈ args, ¬Labels a.flag a.name t
  space : ' ' ∉ t
  nul : '\x00' ∉ t
  combo : (∃ s, t = '-' :: '-' :: s) ∨ t.head? ≠ some '-' ∨
    ∀ a ∈ args, SwitchLike a → ∀ f, a.flag = [f] → f ∉ t.tail
  blanks : ¬∃ s, t = '-' :: s ∧ ∀ x ∈ s, x = '*'

theorem Unknown.map {args : List (Arg V)} {t : Str} (h : Unknown args t) (f : Arg V → Arg V)
    (hf : ∀ a ∈ args, key (f a) = key a) : Unknown (args.map f) t := by
  refine ⟨?_, ?_, h.space, h.nul, ?_, h.blanks⟩
  · simp only [List.forall_mem_map]
    intro a ha; rw [key_unlabeled (hf a ha)]; exact h.labeled a ha
  · simp only [List.forall_mem_map]
    intro a ha; rw [key_flag (hf a ha), key_name (hf a ha)]; exact h.labels a ha
  · rcases h.combo with h1 | h1 | h1
    · exact .inl h1
    · exact .inr (.inl h1)
    · refine .inr (.inr ?_)
      simp only [List.forall_mem_map]
      intro a ha hs
      unfold SwitchLike at hs
      rw [key_kind (hf a ha)] at hs
      rw [key_flag (hf a ha)]
      exact h1 a ha hs

theorem loop_unknown {args : List (Arg V)} (hst : Stat args) {t : Str} (h : Unknown args t)
    (xors : List (List Nat)) (more : List Str) (count : Nat) :
    loop xors ' ' false (t :: more) args false count = .error (.fail .noMatch) := by
  have hm : ∀ a ∈ args, argMatches a t = false := by
    intro a ha
    cases hc : argMatches a t with
    | false => rfl
    | true =>
      exfalso
      apply h.labels a ha
      simp only [argMatches, flagStartString, nameStartString, Bool.or_eq_true,
        Bool.and_eq_true, List.cons_append, List.nil_append] at hc
      rcases hc with ⟨h1, h2⟩ | h1
      · exact .inl ⟨of_decide_eq_true h2, of_decide_eq_true h1⟩
      · exact .inr (of_decide_eq_true h1)
  have hscan : scan ' ' false t more.head? args = .ok ⟨args, none, t, false, false⟩ := by
    apply scan_none
    intro a ha
    apply miss (h.labeled a ha)
    · intro _
      right
      rw [trimFlag_none h.space]
      exact hm a ha
    · intro hk
      refine ⟨hm a ha, ?_⟩
      rcases h.combo with ⟨s, h1⟩ | h1 | h1
      · rw [h1]; exact combinedMatch_long
      · unfold combinedMatch
        split
        · rfl
        · rename_i c cs
          simp at h1
          simp [flagStart, h1]
      · apply combinedMatch_none
        match hf : a.flag, hst.flagLen a ha with
        | [], _ => exact fun e => h.nul (List.mem_of_mem_tail e)
        | [f], _ => exact h1 a ha hk f hf
  have hec : emptyCombined t = false := by
    cases hb : emptyCombined t with
    | false => rfl
    | true =>
      exfalso
      apply h.blanks
      unfold emptyCombined at hb
      split at hb
      · cases hb
      · rename_i c cs
        simp only [Bool.and_eq_true, List.all_eq_true] at hb
        have h1 : c = '-' := of_decide_eq_true hb.1
        exact ⟨cs, by rw [h1], fun x hx => of_decide_eq_true (hb.2 x hx)⟩
  unfold loop
  rw [hscan]
  simp [hec]

/-! ### What a successful parse implies -/

theorem sum_full {F G : List Nat → Nat} : ∀ {l : List (List Nat)}, (∀ g ∈ l, F g ≤ G g) →
    (l.map F).sum ≤ (l.map G).sum ∧
      ((l.map F).sum = (l.map G).sum → ∀ g ∈ l, F g = G g)
  | [], _ => ⟨Nat.le_refl _, fun _ g hg => by cases hg⟩
  | x :: xs, h => by
    obtain ⟨h1, h2⟩ := sum_full (l := xs) (fun g hg => h g (List.mem_cons_of_mem _ hg))
    have hx := h x (by simp)
    simp only [List.map_cons, List.sum_cons]
    refine ⟨by omega, fun e g hg => ?_⟩
    rcases List.mem_cons.1 hg with e' | hg
    · rw [e']; omega
    · exact h2 (by omega) g hg

theorem countP_full {P Q : Arg V → Bool} : ∀ {l : List (Arg V)},
    (∀ a ∈ l, P a = true → Q a = true) →
    l.countP P ≤ l.countP Q ∧ (l.countP P = l.countP Q → ∀ a ∈ l, Q a = true → P a = true)
  | [], _ => ⟨Nat.le_refl _, fun _ g hg => by cases hg⟩
  | x :: xs, h => by
    obtain ⟨h1, h2⟩ := countP_full (l := xs) (fun g hg => h g (List.mem_cons_of_mem _ hg))
    have hx := h x (by simp)
    rw [List.countP_cons, List.countP_cons]
    cases hp : P x <;> cases hq : Q x
    · simp
      exact ⟨h1, fun e => ⟨(fun h => by rw [hq] at h; cases h), fun a ha => h2 e a ha⟩⟩
    · simp
      refine ⟨by omega, fun e => ?_⟩
      omega
    · rw [hp, hq] at hx; simp at hx
    · simp
      refine ⟨h1, fun e => ?_⟩
      exact ⟨fun _ => hp, fun a ha => h2 e a ha⟩

/-- The state after a successful parse. -/
theorem parse_ok {c c' : T V} {n : Nat} (hc : DInv c n 0)
    (hd : c.xors.Pairwise (fun g h => ∀ x ∈ g, x ∉ h)) (sw : Bool)
    (hg : ∀ a ∈ c.args, inGroup c.xors a.id = true →
      kind a.slot = .value ∨ (sw = true ∧ kind a.slot = .switch))
    {argv : List Str} (hs : sw = true → ∀ t ∈ argv, Simple t) (h : parse c argv = .ok c') :
    c'.args.map key = c.args.map key ∧ Inv c.xors sw c'.args ∧
    (∀ a ∈ c'.args, a.required = true → inGroup c.xors a.id = false → a.alreadySet = true) ∧
    (∀ g ∈ c.xors, g ≠ [] → groupSet c'.args g = true) := by
  obtain ⟨hi, hw⟩ := inv_init sw hc hd hg
  unfold parse at h
  split at h
  · cases h
  · rename_i args ign count hl
    split at h
    · cases h
    · rename_i h1
      split at h
      · cases h
      · rename_i h2
        cases h
        obtain ⟨hi', hw', hk⟩ := loop_count sw argv false c.args c.ignoreRest 0 args ign count hs hi
          hw.symm hl
        have hnum := hc.num
        have e1 : c.args.countP (fun a => a.required && !inGroup c.xors a.id) =
            args.countP (fun a => a.required && !inGroup c.xors a.id) := by
          have : ∀ l : List (Arg V), l.countP (fun a => a.required && !inGroup c.xors a.id) =
              (l.map key).countP (fun k => k.required && !inGroup c.xors k.id) := by
            intro l
            rw [List.countP_map]
            apply List.countP_congr
            intro a _
            simp [key]
          rw [this, ← hk, ← this]
        rw [e1] at hnum
        have hcount : count = c.numRequired := by omega
        obtain ⟨q1, q2⟩ := countP_full (P := counts c.xors)
          (Q := fun a => a.required && !inGroup c.xors a.id) (l := args) (by
            intro a _ h
            simp only [counts, Bool.and_eq_true] at h
            simp only [Bool.and_eq_true]
            exact h.1)
        obtain ⟨q3, q4⟩ := sum_full (F := fun g => if groupSet args g then g.length else 0)
          (G := List.length) (l := c.xors) (by
            intro g _
            split
            · exact Nat.le_refl _
            · exact Nat.zero_le _)
        unfold weight at hw'
        have q5 := q2 (by omega)
        have q6 := q4 (by omega)
        refine ⟨hk, hi', ?_, ?_⟩
        · intro a ha hr hgr
          have := q5 a ha (by simp [hr, hgr])
          simp only [counts, Bool.and_eq_true] at this
          exact this.2
        · intro g hg hne
          have := q6 g hg
          cases hgs : groupSet args g
          · simp [hgs] at this
            exact absurd (List.length_eq_zero_iff.1 this.symm) hne
          · rfl

/-! ### Integers -/

theorem dropWhile_all {q : Char → Bool} : ∀ {l : Str}, (∀ x ∈ l, q x = true) →
    l.dropWhile q = []
  | [], _ => rfl
  | x :: xs, h => by
    rw [List.dropWhile_cons, h x (by simp), if_pos rfl,
      dropWhile_all (fun y hy => h y (List.mem_cons_of_mem _ hy))]

theorem extractInt_numeral {i : Int} (h1 : -(2 ^ 31) ≤ i) (h2 : i < 2 ^ 31) :
    extractInt (numeral i) = .ok i := by
  have key : readInt (numeral i) = some (i, [], true) := by
    unfold readInt numeral
    obtain ⟨c, cs, hc, hd⟩ := Conv.toDigits_cons i.natAbs
    have hsp : ∀ d : Char, d.isDigit = true → isSpace d = false := by
      intro d hd
      cases hs : isSpace d
      · rfl
      · unfold isSpace at hs
        simp only [Bool.or_eq_true, decide_eq_true_eq] at hs
        rcases hs with ((((rfl | rfl) | rfl) | rfl) | rfl) | rfl <;> exact absurd hd (by decide)
    by_cases h : i < 0
    · rw [if_pos h]
      have e0 : ('-' :: Nat.toDigits 10 i.natAbs).dropWhile isSpace =
          '-' :: Nat.toDigits 10 i.natAbs := by
        rw [List.dropWhile_cons, if_neg (by decide)]
      have e2 : (Nat.toDigits 10 i.natAbs).dropWhile Char.isDigit = [] := by
        exact dropWhile_all (fun x hx => Conv.toDigits_isDigit hx)
      simp only [e0, splitSign, Conv.takeWhile_digits, e2, Nat.toDigits_ne_nil, if_false, if_true,
        Nat.ofDigitChars_ten_toDigits]
      have e1 : -((i.natAbs : Nat) : Int) = i := by omega
      rw [e1, if_neg (by omega)]
      rfl
    · rw [if_neg h]
      have e0 : (Nat.toDigits 10 i.natAbs).dropWhile isSpace = Nat.toDigits 10 i.natAbs := by
        rw [hc, List.dropWhile_cons, if_neg (by simp [hsp c hd])]
      have e2 : (Nat.toDigits 10 i.natAbs).dropWhile Char.isDigit = [] := by
        exact dropWhile_all (fun x hx => Conv.toDigits_isDigit hx)
      have hm : splitSign (Nat.toDigits 10 i.natAbs) = (false, Nat.toDigits 10 i.natAbs) := by
        unfold splitSign
        split
        · rename_i t e
          rw [hc] at e
          have := (List.cons.inj e).1
          rw [this] at hd; exact absurd hd (by decide)
        · rename_i t e
          rw [hc] at e
          have := (List.cons.inj e).1
          rw [this] at hd; exact absurd hd (by decide)
        · rfl
      simp only [e0, hm, Conv.takeWhile_digits, e2, Nat.toDigits_ne_nil, if_false,
        Nat.ofDigitChars_ten_toDigits, Bool.false_eq_true]
      have e1 : ((i.natAbs : Nat) : Int) = i := by omega
      rw [e1, if_neg (by omega)]
      rfl
  have hne : numeral i ≠ [] := by
    unfold numeral
    split
    · simp
    · exact Nat.toDigits_ne_nil
  unfold extractInt extractWith
  obtain ⟨c, cs, hc⟩ := List.exists_cons_of_ne_nil hne
  rw [hc] at key ⊢
  simp [extractLoop, key]

end Ecl.CmdLine
