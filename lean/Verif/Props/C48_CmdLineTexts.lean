import Verif.Props.C48_C50_CmdLine

/-! # C48: which texts are values -/
set_option autoImplicit false

namespace Ecl.Props
open Ecl Ecl.Spec Ecl.CmdLine

namespace C48

theorem isSpace_iff (c : Char) : isSpace c = true ↔ Blank c := by
  simp [isSpace, Blank, or_assoc]

theorem isDigit_iff (c : Char) : c.isDigit = true ↔ '0' ≤ c ∧ c ≤ '9' := by
  simp only [Char.isDigit, Bool.and_eq_true, decide_eq_true_eq, Char.le_def]

theorem value_eq (ds : List Char) (n : Nat) :
    ds.foldl (fun n c => 10 * n + (c.toNat - '0'.toNat)) n = Nat.ofDigitChars 10 ds n := by
  induction ds generalizing n with
  | nil => rfl
  | cons c cs ih => rw [List.foldl_cons, ih, Nat.ofDigitChars_cons]

theorem mem_takeWhile {q : Char → Bool} : ∀ {l : List Char} {x : Char}, x ∈ l.takeWhile q → q x = true
  | [], _, h => by simp at h
  | a :: l, x, h => by
    rw [List.takeWhile_cons] at h
    split at h
    · rcases List.mem_cons.1 h with rfl | h
      · assumption
      · exact mem_takeWhile h
    · simp at h

theorem takeWhile_all {q : Char → Bool} : ∀ {l : List Char}, (∀ c ∈ l, q c = true) → l.takeWhile q = l
  | [], _ => rfl
  | a :: l, h => by
    rw [List.takeWhile_cons, if_pos (h a (by simp)), takeWhile_all fun c hc => h c (by simp [hc])]

theorem dropWhile_append {q : Char → Bool} : ∀ {w t : List Char}, (∀ c ∈ w, q c = true) →
    (∀ c, t.head? = some c → q c = false) → (w ++ t).dropWhile q = t
  | [], [], _, _ => rfl
  | [], c :: t, _, h => by
    rw [List.nil_append, List.dropWhile_cons, h c rfl]; rfl
  | a :: w, t, hw, h => by
    rw [List.cons_append, List.dropWhile_cons, hw a (by simp)]
    exact dropWhile_append (fun c hc => hw c (by simp [hc])) h

/-- The number read from a text, with its sign. -/
private def number (s : List Char) : Int :=
  if (splitSign (s.dropWhile isSpace)).1 then
    -((Nat.ofDigitChars 10 ((splitSign (s.dropWhile isSpace)).2.takeWhile Char.isDigit) 0 : Nat) : Int)
  else (Nat.ofDigitChars 10 ((splitSign (s.dropWhile isSpace)).2.takeWhile Char.isDigit) 0 : Nat)

private theorem readInt_eq (s : List Char) : readInt s =
    if (splitSign (s.dropWhile isSpace)).2.takeWhile Char.isDigit = [] then none
    else if number s < -(2 ^ 31) ∨ 2 ^ 31 ≤ number s then none
    else some (number s, (splitSign (s.dropWhile isSpace)).2.dropWhile Char.isDigit,
      ((splitSign (s.dropWhile isSpace)).2.dropWhile Char.isDigit).isEmpty) := rfl

/-- Reading one integer that ends the text. -/
theorem readInt_end (s : List Char) (i : Int) : readInt s = some (i, [], true) ↔ IntText s i := by
  constructor
  · intro h
    rw [readInt_eq] at h
    split at h
    · cases h
    split at h
    · cases h
    rename_i hne hr
    simp only [Option.some.injEq, Prod.mk.injEq] at h
    obtain ⟨h1, h2, -⟩ := h
    have hall := List.takeWhile_append_dropWhile (p := Char.isDigit) (l := (splitSign (s.dropWhile isSpace)).2)
    rw [h2, List.append_nil] at hall
    have hsign : ∃ g, s.dropWhile isSpace = g ++ (splitSign (s.dropWhile isSpace)).2 ∧
        ((g = [] ∨ g = ['+']) ∧ (splitSign (s.dropWhile isSpace)).1 = false ∨
          g = ['-'] ∧ (splitSign (s.dropWhile isSpace)).1 = true) := by
      generalize s.dropWhile isSpace = l
      unfold splitSign
      split
      · exact ⟨['-'], rfl, .inr ⟨rfl, rfl⟩⟩
      · exact ⟨['+'], rfl, .inl ⟨.inr rfl, rfl⟩⟩
      · exact ⟨[], rfl, .inl ⟨.inl rfl, rfl⟩⟩
    obtain ⟨g, hg, hk⟩ := hsign
    refine ⟨s.takeWhile isSpace, g, (splitSign (s.dropWhile isSpace)).2, ?_, ?_, ?_, ?_, ?_, ?_⟩
    · rw [List.append_assoc, ← hg, List.takeWhile_append_dropWhile]
    · intro c hc; exact (isSpace_iff c).1 (mem_takeWhile hc)
    · rw [← hall]; exact hne
    · intro c hc
      rw [← hall] at hc
      exact (isDigit_iff c).1 (mem_takeWhile hc)
    · unfold number at h1
      rw [hall] at h1
      rw [decimalValue, value_eq]
      rcases hk with ⟨hs, hb⟩ | ⟨hs, hb⟩
      · rw [hb] at h1; exact .inl ⟨hs, h1.symm⟩
      · rw [hb] at h1; exact .inr ⟨hs, h1.symm⟩
    · rw [h1] at hr; omega
  · rintro ⟨w, g, ds, rfl, hw, hne, hd, hv, h1, h2⟩
    have hd' : ∀ c ∈ ds, c.isDigit = true := fun c hc => (isDigit_iff c).2 (hd c hc)
    obtain ⟨d, es, rfl⟩ := List.exists_cons_of_ne_nil hne
    have hdd := hd' d (by simp)
    have hds : isSpace d = false := by
      cases hs : isSpace d
      · rfl
      · unfold isSpace at hs
        simp only [Bool.or_eq_true, decide_eq_true_eq] at hs
        rcases hs with ((((rfl | rfl) | rfl) | rfl) | rfl) | rfl <;> exact absurd hdd (by decide)
    have hdrop : (w ++ g ++ d :: es).dropWhile isSpace = g ++ d :: es := by
      rw [List.append_assoc]
      refine dropWhile_append (fun c hc => (isSpace_iff c).2 (hw c hc)) ?_
      intro c hc
      rcases hv with ⟨rfl | rfl, _⟩ | ⟨rfl, _⟩
      · simp at hc; rw [← hc]; exact hds
      · simp at hc; rw [← hc]; decide
      · simp at hc; rw [← hc]; decide
    have hsp : splitSign (g ++ d :: es) = (decide (g = ['-']), d :: es) := by
      rcases hv with ⟨rfl | rfl, _⟩ | ⟨rfl, _⟩
      · unfold splitSign
        rw [List.nil_append]
        split
        · rename_i t e; rw [(List.cons.inj e).1] at hdd; exact absurd hdd (by decide)
        · rename_i t e; rw [(List.cons.inj e).1] at hdd; exact absurd hdd (by decide)
        · rfl
      · rfl
      · rfl
    have htake : (d :: es).takeWhile Char.isDigit = d :: es := by
      exact takeWhile_all hd'
    have hdrop2 : (d :: es).dropWhile Char.isDigit = [] := dropWhile_all hd'
    simp only [readInt, hdrop, hsp, htake, hdrop2]
    rw [if_neg (by simp)]
    rw [decimalValue, value_eq] at hv
    have hi : (if decide (g = ['-']) = true then -((Nat.ofDigitChars 10 (d :: es) 0 : Nat) : Int)
        else (Nat.ofDigitChars 10 (d :: es) 0 : Nat)) = i := by
      rcases hv with ⟨rfl | rfl, rfl⟩ | ⟨rfl, rfl⟩ <;> rfl
    rw [hi, if_neg (by omega)]
    rfl

theorem readInt_eof {s : List Char} {v : Int} {rest : List Char} {e : Bool}
    (h : readInt s = some (v, rest, e)) : e = rest.isEmpty := by
  rw [readInt_eq] at h
  split at h
  · cases h
  split at h
  · cases h
  cases h; rfl

/-- Once a value was read and text is left, the text is rejected. -/
theorem loop_more {V : Type _} (rd : List Char → Option (V × List Char × Bool)) :
    ∀ (fuel : Nat) (s : List Char) (v : V) (n : Nat), s ≠ [] → 0 < n →
      extractLoop rd fuel s (some v) n = .failure ∨ extractLoop rd fuel s (some v) n = .tooMany
  | 0, _, _, _, _, _ => .inl rfl
  | fuel + 1, s, v, n, hs, hn => by
    obtain ⟨c, cs, rfl⟩ := List.exists_cons_of_ne_nil hs
    rw [extractLoop]
    · split
      · exact .inl rfl
      · rename_i u rest eof _
        split
        · rw [if_pos (by omega)]; exact .inr rfl
        · by_cases hr : rest = []
          · subst hr
            cases fuel with
            | zero => exact .inl rfl
            | succ fuel =>
              rw [extractLoop, if_pos (by omega)]; exact .inr rfl
          · exact loop_more rd fuel rest u (n + 1) hr (by omega)
    · simp

theorem int_some {s : List Char} (hs : s ≠ []) (i : Int) : extractInt s = .ok i ↔ readInt s = some (i, [], true) := by
  obtain ⟨c, cs, rfl⟩ := List.exists_cons_of_ne_nil hs
  unfold extractInt extractWith
  rw [extractLoop]
  · cases hr : readInt (c :: cs) with
    | none => simp
    | some r =>
      obtain ⟨v, rest, e⟩ := r
      have he := readInt_eof hr
      subst he
      cases rest with
      | nil => simp
      | cons d ds =>
        simp only [List.isEmpty_cons, Bool.false_eq_true, if_false, Option.some.injEq, Prod.mk.injEq,
          reduceCtorEq, false_and, and_false, iff_false]
        intro h
        rcases loop_more readInt (c :: cs).length (d :: ds) v 1 (by simp) (by omega) with h' | h' <;>
          · rw [Nat.zero_add, h'] at h; cases h
  · simp

theorem int_nothing (s : List Char) : extractInt s = .nothing ↔ s = [] := by
  constructor
  · intro h
    cases s with
    | nil => rfl
    | cons c cs =>
      exfalso
      unfold extractInt extractWith at h
      rw [extractLoop] at h
      · cases hr : readInt (c :: cs) with
        | none => rw [hr] at h; cases h
        | some r =>
          obtain ⟨v, rest, e⟩ := r
          have he := readInt_eof hr
          subst he
          rw [hr] at h
          cases rest with
          | nil => cases h
          | cons d ds =>
            simp only [List.isEmpty_cons, Bool.false_eq_true, if_false] at h
            rcases loop_more readInt (c :: cs).length (d :: ds) v 1 (by simp) (by omega) with h' | h' <;>
              · rw [Nat.zero_add, h'] at h; cases h
      · simp
  · rintro rfl; rfl

variable {V : Type _}

/-- What becomes of one more label and text. -/
theorem decides [DecidableEq V] {hv : Bool} {prog : List (Stmt V)} {c : T V}
    (hc : declare (new ' ' hv) prog 3 = .ok c) (hx : c.xors = []) {items : List (Item V)}
    (hi : GoodItems c items) {a : Arg V} (ha : a ∈ c.args) (hl : a.unlabeled = false)
    (hk : TakesMany a ∨ (TakesOne a ∧ valuesFor items a.id = [])) {t : List Char}
    (ht : LabelOf a t) {allowed : Option (List V)} (hcon : a.constraint = allowed.map valuesConstraint)
    (s : List Char) :
    (∀ v, a.ext s = .ok v → Permitted allowed v →
      (∀ b ∈ c.args, b.required = true → valuesFor (items ++ [⟨a.id, t, s, v⟩]) b.id ≠ []) →
      parse c (spaced items ++ [t, s]) =
        .ok { c with args := c.args.map fun b => holding b (valuesFor (items ++ [⟨a.id, t, s, v⟩]) b.id) }) ∧
    (a.ext s ≠ .nothing → (∀ v, a.ext s = .ok v → ¬Permitted allowed v) → ∀ more,
      ∃ e, parse c (spaced items ++ t :: s :: more) = .error (.fail e)) := by
  constructor
  · intro v hext hp hreq
    have hgood : GoodItems c (items ++ [⟨a.id, t, s, v⟩]) := by
      constructor
      · intro x hxm
        rcases List.mem_append.1 hxm with h | h
        · exact hi.gives x h
        · rw [List.mem_singleton.1 h]
          refine ⟨a, ha, rfl, hl, ?_, ht, hext, ?_⟩
          · rcases hk with h | h
            · exact .inr h
            · exact .inl h.1
          · intro f hf
            rw [hcon] at hf
            cases allowed with
            | none => cases hf
            | some l =>
              cases hf
              simp only [valuesConstraint, List.contains_iff_mem]
              exact hp l rfl
      · intro b hb hone
        have h1 := hi.once b hb hone
        have e : valuesFor (items ++ [⟨a.id, t, s, v⟩]) b.id =
            valuesFor items b.id ++ if a.id = b.id then [v] else [] := by
          unfold valuesFor
          rw [List.filter_append, List.map_append]
          congr 1
          by_cases h : a.id = b.id <;> simp [h]
        rw [e]
        by_cases h : a.id = b.id
        · rw [if_pos h]
          rcases hk with hm | ho
          · obtain ⟨⟨n, hd⟩, _, _⟩ := declared hc
            exact absurd (eq_of_id (hd.apart.imp fun h => h.2.1) ha hb h) (by
              rintro rfl
              obtain ⟨_, h1⟩ := hm
              obtain ⟨_, h2⟩ := hone
              rw [h1] at h2; cases h2)
          · rw [← h, ho.2]; simp
        · rw [if_neg h, List.append_nil]; exact h1
    have := C48_values_partial hc hx hgood hreq
    rwa [show spaced (items ++ [⟨a.id, t, s, v⟩]) = spaced items ++ [t, s] by simp [spaced]] at this
  · intro hne hno more
    apply C48_bad_value_rejected hc hx hi ha hl hk ht
    cases hext : a.ext s with
    | ok v =>
      right; right
      have := hno v hext
      simp only [Permitted] at this
      cases allowed with
      | none => exact absurd (by intro l hl; cases hl) this
      | some l =>
        refine ⟨v, valuesConstraint l, rfl, hcon, ?_⟩
        cases hb : valuesConstraint l v
        · rfl
        · exact absurd (by
            intro l' hl'
            cases hl'
            simpa [valuesConstraint, List.contains_iff_mem] using hb) this
    | nothing => exact absurd hext hne
    | failure => exact .inl rfl
    | tooMany => exact .inr (.inl rfl)

end C48

/-- **C48** (integers): the texts read as integers are exactly those of blanks, perhaps a sign, and digits, that
stand for a number of 32 bits; in particular no blank may follow, and a second number is rejected.  Nothing is
read from the empty text only. -/
theorem C48_integer_texts (s : List Char) :
    (∀ i, extractInt s = .ok i ↔ IntText s i) ∧ (extractInt s = .nothing ↔ s = []) := by
  refine ⟨fun i => ?_, C48.int_nothing s⟩
  rw [← C48.readInt_end]
  by_cases hs : s = []
  · subst hs
    constructor
    · intro h; cases h
    · intro h; cases h
  · exact C48.int_some hs i

/-- **C48** (characters): the texts read as a character are exactly those of blanks and one other character. -/
theorem C48_character_texts (s : List Char) :
    (∀ c, extractChar s = .ok c ↔ ∃ w, s = w ++ [c] ∧ (∀ b ∈ w, Blank b) ∧ ¬Blank c) ∧
    (extractChar s = .nothing ↔ s = []) := by
  cases s with
  | nil =>
    refine ⟨fun c => ⟨?_, ?_⟩, ⟨fun _ => rfl, fun _ => rfl⟩⟩
    · intro h; cases h
    rintro ⟨w, h, _⟩
    simp at h
  | cons a as =>
    have hsplit := List.takeWhile_append_dropWhile (p := isSpace) (l := a :: as)
    unfold extractChar extractWith
    rw [extractLoop]
    · unfold readChar
      cases hd : (a :: as).dropWhile isSpace with
      | nil =>
        simp only [reduceCtorEq, false_iff, iff_false]
        refine ⟨?_, by simp⟩
        rintro c ⟨w, hw, hb, hc⟩
        rw [hw, C48.dropWhile_append (fun x hx => (C48.isSpace_iff x).2 (hb x hx))] at hd
        · cases hd
        · intro x hx
          simp only [List.head?_cons, Option.some.injEq] at hx
          subst hx
          cases h : isSpace c
          · rfl
          · exact absurd ((C48.isSpace_iff c).1 h) hc
      | cons d ds =>
        rw [hd] at hsplit
        have hdns : ¬Blank d := by
          intro hb
          have h1 := (C48.isSpace_iff d).2 hb
          have h2 : ((a :: as).dropWhile isSpace).dropWhile isSpace = (a :: as).dropWhile isSpace := by
            generalize a :: as = l
            induction l with
            | nil => rfl
            | cons x l ih =>
              rw [List.dropWhile_cons]
              split
              · exact ih
              · rename_i hx; rw [List.dropWhile_cons, if_neg hx]
          rw [hd, List.dropWhile_cons, if_pos h1] at h2
          have h3 : (ds.dropWhile isSpace).length ≤ ds.length := (List.dropWhile_sublist _).length_le
          rw [h2] at h3
          simp at h3
        simp only [Bool.false_eq_true, if_false]
        cases ds with
        | nil =>
          simp only [List.length_cons]
          rw [extractLoop]
          simp only [Nat.zero_add, Nat.lt_irrefl, gt_iff_lt, if_false, reduceCtorEq, Ext.ok.injEq]
          refine ⟨fun c => ⟨?_, ?_⟩, by simp⟩
          · rintro rfl
            exact ⟨_, hsplit.symm, fun b hb => (C48.isSpace_iff b).1 (C48.mem_takeWhile hb), hdns⟩
          · rintro ⟨w, hw, _⟩
            rw [hw] at hsplit
            exact (List.singleton_inj.1 (List.append_inj_right' hsplit rfl))
        | cons e es =>
          have hno := C48.loop_more readChar (a :: as).length (e :: es) d 1 (by simp) (by omega)
          constructor
          · intro c
            constructor
            · intro h
              rcases hno with h' | h' <;>
                · rw [Nat.zero_add] at h; unfold readChar at h'; rw [h'] at h; cases h
            · rintro ⟨w, hw, hb, hc⟩
              exfalso
              have : (a :: as).dropWhile isSpace = [c] := by
                rw [hw]
                refine C48.dropWhile_append (fun x hx => (C48.isSpace_iff x).2 (hb x hx)) ?_
                intro x hx
                simp only [List.head?_cons, Option.some.injEq] at hx
                subst hx
                cases h : isSpace c
                · rfl
                · exact absurd ((C48.isSpace_iff c).1 h) hc
              rw [hd] at this
              simp at this
          · constructor
            · intro h
              rcases hno with h' | h' <;>
                · rw [Nat.zero_add] at h; unfold readChar at h'; rw [h'] at h; cases h
            · intro h; simp at h
    · simp

section
variable {hv : Bool}

/-- **C48** (an integer argument, perhaps with a list of allowed values, after any good items): its label and a
text that stands for an allowed integer give it that integer; with any other text that is not empty the command
line is rejected, whatever follows. -/
theorem C48_integer_argument {prog : List (Stmt Int)} {c : T Int}
    (hc : declare (new ' ' hv) prog 3 = .ok c) (hx : c.xors = []) {items : List (Item Int)}
    (hi : GoodItems c items) {a : Arg Int} (ha : a ∈ c.args) (hl : a.unlabeled = false)
    (hk : TakesMany a ∨ (TakesOne a ∧ valuesFor items a.id = [])) {t : List Char}
    (ht : LabelOf a t) {allowed : Option (List Int)} (hext : a.ext = extractInt)
    (hcon : a.constraint = allowed.map valuesConstraint) (s : List Char) :
    (∀ i, IntText s i → Permitted allowed i →
      (∀ b ∈ c.args, b.required = true → valuesFor (items ++ [⟨a.id, t, s, i⟩]) b.id ≠ []) →
      parse c (spaced items ++ [t, s]) =
        .ok { c with args := c.args.map fun b => holding b (valuesFor (items ++ [⟨a.id, t, s, i⟩]) b.id) }) ∧
    (s ≠ [] → (∀ i, IntText s i → ¬Permitted allowed i) → ∀ more,
      ∃ e, parse c (spaced items ++ t :: s :: more) = .error (.fail e)) := by
  have h := C48.decides hc hx hi ha hl hk ht hcon s
  have h1 := C48_integer_texts s
  rw [hext] at h
  refine ⟨fun i h2 => h.1 i ((h1.1 i).2 h2), fun hs hno => h.2 (fun e => hs (h1.2.1 e)) ?_⟩
  intro v hv
  exact hno v ((h1.1 v).1 hv)

/-- **C48** (a text argument, perhaps with a list of allowed texts, after any good items): its label and an
allowed text, whatever it consists of, give it that text; with a text that is not allowed the command line is
rejected, whatever follows. -/
theorem C48_text_argument {prog : List (Stmt (List Char))} {c : T (List Char)}
    (hc : declare (new ' ' hv) prog 3 = .ok c) (hx : c.xors = []) {items : List (Item (List Char))}
    (hi : GoodItems c items) {a : Arg (List Char)} (ha : a ∈ c.args) (hl : a.unlabeled = false)
    (hk : TakesMany a ∨ (TakesOne a ∧ valuesFor items a.id = [])) {t : List Char}
    (ht : LabelOf a t) {allowed : Option (List (List Char))} (hext : a.ext = extractString)
    (hcon : a.constraint = allowed.map valuesConstraint) (s : List Char) :
    (Permitted allowed s →
      (∀ b ∈ c.args, b.required = true → valuesFor (items ++ [⟨a.id, t, s, s⟩]) b.id ≠ []) →
      parse c (spaced items ++ [t, s]) =
        .ok { c with args := c.args.map fun b => holding b (valuesFor (items ++ [⟨a.id, t, s, s⟩]) b.id) }) ∧
    (¬Permitted allowed s → ∀ more,
      ∃ e, parse c (spaced items ++ t :: s :: more) = .error (.fail e)) := by
  have h := C48.decides hc hx hi ha hl hk ht hcon s
  rw [hext] at h
  refine ⟨h.1 s rfl, fun hno => h.2 (by intro h; cases h) ?_⟩
  intro v hv
  cases hv
  exact hno

end

/-- Texts that are integers, and texts that are not. -/
example : IntText "  -42".toList (-42) ∧ (∀ i, ¬IntText "12 ".toList i) ∧ (∀ i, ¬IntText "1 2".toList i) ∧
    ∀ i, ¬IntText "2147483648".toList i := by
  refine ⟨⟨[' ', ' '], ['-'], ['4', '2'], by decide, by simp [Blank], by simp, by decide, .inr ⟨rfl, by decide⟩,
    by decide, by decide⟩, ?_, ?_, ?_⟩
  all_goals
    intro i h
    rw [← (C48_integer_texts _).1] at h
    revert h
    have : ∀ r : Ext Int, r = .failure ∨ r = .tooMany → r ≠ .ok i := by rintro r (rfl | rfl) <;> simp
    exact this _ (by decide)

/-- A program with an integer argument that allows two values, and one with a text argument. -/
example : ∃ c : T Int, declare (new ' ' false)
      [.one ⟨['n'], ['n', 'u'], [], false, false, extractInt, some (valuesConstraint [1, 2]), .value 7⟩] 3 = .ok c ∧
    c.xors = [] ∧ GoodItems c [] ∧ ∃ a ∈ c.args, a.unlabeled = false ∧ TakesOne a ∧ LabelOf a ['-', 'n'] ∧
      a.ext = extractInt ∧ a.constraint = (some [1, 2]).map valuesConstraint ∧
      Permitted (some [1, 2]) (1 : Int) ∧ ¬Permitted (some [1, 2]) (3 : Int) := by
  refine ⟨_, rfl, rfl, ⟨by simp, by simp [valuesFor]⟩, _, .head _, rfl, ⟨7, rfl⟩,
    ⟨.inl ⟨by decide, rfl⟩, by decide, by decide, by decide⟩, rfl, rfl, ?_, ?_⟩
  · intro l hl; cases hl; simp
  · intro h; have := h _ rfl; simp at this

example : ∃ c : T (List Char), declare (new ' ' false)
      [.one ⟨['n'], ['n', 'u'], [], false, false, extractString, none, .value []⟩] 3 = .ok c ∧
    c.xors = [] ∧ GoodItems c [] ∧ ∃ a ∈ c.args, a.unlabeled = false ∧ TakesOne a ∧ LabelOf a ['-', 'n'] ∧
      a.ext = extractString ∧ a.constraint = (none : Option (List (List Char))).map valuesConstraint ∧
      Permitted none ['x', ' ', 'y'] := by
  refine ⟨_, rfl, rfl, ⟨by simp, by simp [valuesFor]⟩, _, .head _, rfl, ⟨[], rfl⟩,
    ⟨.inl ⟨by decide, rfl⟩, by decide, by decide, by decide⟩, rfl, rfl, ?_⟩
  intro l hl; cases hl

end Ecl.Props
