import Verif.Lemmas.CmdLineDeclare
import Verif.Lemmas.CmdLineCount
import Verif.Spec.CmdLineSaid

/-!
# Lemmas about the messages of command lines
-/
set_option autoImplicit false

namespace Ecl.CmdLineSaid
open Ecl.CmdLine (Str Arg Err Stop Scan T Step key)
open Ecl.Spec.CmdLineSaid

variable {V : Type}

/-! ## The messages change nothing -/

/-- What `Verif.Model.CmdLine` keeps of the end. -/
def forget : End → Stop
  | .said e _ => .fail e
  | .help => .help
  | .version => .version
  | .ub => .ub

theorem forget_blame (descr : Nat → Str) (d : Char) (tok : Str) (next : Option Str) (a : Arg V) (e : Stop) :
    forget (blame descr d tok next a e) = e := by cases e <;> rfl

theorem scan_forget (descr : Nat → Str) (d : Char) (next : Option Str) : ∀ (as : List (Arg V)) (ign : Bool) (tok : Str),
    (scan descr d ign tok next as).mapError forget = CmdLine.scan d ign tok next as := by
  intro as
  induction as with
  | nil => intro ign tok; rfl
  | cons a as ih =>
    intro ign tok
    unfold scan CmdLine.scan
    cases hp : CmdLine.processArg d ign tok next a with
    | error e => simp [Except.mapError, forget_blame]
    | ok r =>
      simp only
      split
      · rfl
      · rw [← ih r.ign r.tok]
        cases scan descr d r.ign r.tok next as <;> rfl

theorem loop_forget (descr : Nat → Str) (xors : List (List Nat)) (d : Char) :
    ∀ (toks : List Str) (skip : Bool) (args : List (Arg V)) (ign : Bool) (count : Nat),
    (loop descr xors d skip toks args ign count).mapError forget = CmdLine.loop xors d skip toks args ign count := by
  intro toks
  induction toks with
  | nil => intro skip args ign count; cases skip <;> rfl
  | cons tok toks ih =>
    intro skip args ign count
    cases skip with
    | true => unfold loop CmdLine.loop; exact ih _ _ _ _
    | false =>
      unfold loop CmdLine.loop
      rw [← scan_forget descr d toks.head? args ign tok]
      cases scan descr d ign tok toks.head? args with
      | error e => rfl
      | ok r =>
        rw [show Except.mapError forget (Except.ok r : Except End (Scan V)) = .ok r from rfl]
        simp only
        cases r.hit with
        | some id => exact ih _ _ _ _
        | none =>
          by_cases h1 : CmdLine.emptyCombined r.tok = true
          · simp only [if_pos h1]; exact ih _ _ _ _
          · simp only [if_neg h1]
            by_cases h2 : r.ign = true
            · simp only [if_pos h2]; exact ih _ _ _ _
            · simp only [if_neg h2]; rfl

/-! ## Starred words -/

theorem starRefl (s : Str) : Starred s s :=
  ⟨rfl, List.forall₂_same.2 fun _ _ => .inl rfl, fun _ => rfl⟩

theorem starList {s t : Str} (h : List.Forall₂ (fun c c' => c' = c ∨ c' = '*') s t) : ∀ {u : Str},
    List.Forall₂ (fun c c' => c' = c ∨ c' = '*') t u → List.Forall₂ (fun c c' => c' = c ∨ c' = '*') s u := by
  induction h with
  | nil => intro u h2; cases h2; exact .nil
  | cons hc _ ih =>
    intro u h2
    cases h2 with
    | cons hd ht =>
      refine .cons ?_ (ih ht)
      rcases hd with rfl | rfl
      · exact hc
      · exact .inr rfl

theorem starTrans {s t u : Str} (h : Starred s t) (h' : Starred t u) : Starred s u := by
  refine ⟨h.1.trans h'.1, starList h.2.1 h'.2.1, fun hs => ?_⟩
  have := h.2.2 hs
  subst this
  exact h'.2.2 hs

theorem blankFirst_star {f : Char} : ∀ {s s' : Str}, CmdLine.blankFirst f s = some s' →
    List.Forall₂ (fun c c' => c' = c ∨ c' = '*') s s'
  | [], s', h => by simp [CmdLine.blankFirst] at h
  | c :: cs, s', h => by
    unfold CmdLine.blankFirst at h
    split at h
    · cases h
      exact .cons (.inr rfl) (List.forall₂_same.2 fun _ _ => .inl rfl)
    · cases h1 : CmdLine.blankFirst f cs with
      | none => rw [h1] at h; cases h
      | some t =>
        rw [h1] at h
        have h2 : c :: t = s' := by simpa using h
        subst h2
        exact .cons (.inl rfl) (blankFirst_star h1)

theorem combined_star {a : Arg V} {s s' : Str} (h : CmdLine.combinedMatch a s = some s') : Starred s s' := by
  unfold CmdLine.combinedMatch at h
  split at h
  · cases h
  · rename_i c cs
    split at h
    · cases h
    · rename_i hd
      split at h
      · cases h
      · rename_i h2
        cases h1 : CmdLine.blankFirst (a.flag.headD '\x00') cs with
        | none => rw [h1] at h; cases h
        | some t =>
          rw [h1] at h
          have h3 : c :: t = s' := by simpa using h
          subst h3
          refine ⟨rfl, .cons (.inl rfl) (blankFirst_star h1), fun hs => ?_⟩
          rcases hs with hs | hs
          · exact absurd (by simpa [CmdLine.flagStart] using hd) hs
          · exact absurd hs h2

theorem blankAll_star {a : Arg V} : ∀ {n : Nat} {s : Str} {r : Str × Nat},
    CmdLine.blankAll a n s = some r → Starred s r.1
  | 0, s, r, h => by
    unfold CmdLine.blankAll at h
    split at h
    · cases h; exact starRefl _
    · cases h
  | n + 1, s, r, h => by
    unfold CmdLine.blankAll at h
    split at h
    · cases h; exact starRefl _
    · rename_i s' hc
      cases h1 : CmdLine.blankAll a n s' with
      | none => rw [h1] at h; cases h
      | some q =>
        rw [h1] at h
        have h2 : (q.1, q.2 + 1) = r := by simpa using h
        subst h2
        exact starTrans (combined_star hc) (blankAll_star (r := q) h1)

theorem process_star {d : Char} {ign : Bool} {tok : Str} {next : Option Str} {a : Arg V}
    {r : Step V} (h : CmdLine.processArg d ign tok next a = .ok r) : Starred tok r.tok := by
  unfold CmdLine.processArg at h
  split at h
  · unfold CmdLine.processUnlabeled at h
    split at h
    · cases h; exact starRefl _
    · split at h
      · cases h; exact starRefl _
      · split at h
        · cases h
        · cases h; exact starRefl _
  · split at h
    · unfold CmdLine.processValue at h
      split at h
      · cases h; exact starRefl _
      · split at h
        · cases h; exact starRefl _
        · split at h
          · split at h
            · cases h
            · split at h
              · cases h
              · split at h
                · cases h
                · cases h; exact starRefl _
          · cases h; exact starRefl _
    · unfold CmdLine.processMulti at h
      split at h
      · cases h; exact starRefl _
      · split at h
        · cases h; exact starRefl _
        · split at h
          · split at h
            · cases h
            · split at h
              · cases h
              · cases h; exact starRefl _
          · cases h; exact starRefl _
    · unfold CmdLine.processSwitch at h
      split at h
      · cases h; exact starRefl _
      · split at h
        · split at h
          · cases h
          · split at h
            · cases h
            · cases h; exact starRefl _
        · split at h
          · cases h; exact starRefl _
          · rename_i tok1 hc
            split at h
            · split at h
              · cases h
              · split at h
                · cases h
                · cases h; exact combined_star hc
            · split at h
              · cases h
              · split at h
                · cases h
                · cases h; exact combined_star hc
    · unfold CmdLine.processMultiSwitch at h
      split at h
      · cases h; exact starRefl _
      · split at h
        · split at h
          · cases h
          · cases h; exact starRefl _
        · split at h
          · cases h; exact starRefl _
          · rename_i tok1 hc
            split at h
            · cases h
            · rename_i tok2 k hb
              split at h
              · cases h
              · cases h; exact starTrans (combined_star hc) (blankAll_star hb)

/-! ## Who is to blame -/

theorem extract_error {a : Arg V} {s : Str} {e : Err} (h : CmdLine.extractValue a s = .error (.fail e)) :
    e ∈ quoting := by
  unfold CmdLine.extractValue at h
  split at h
  · cases h; decide
  · cases h; decide
  · split at h
    · split at h <;> cases h; decide
    · split at h <;> cases h; decide
    · cases h
  · split at h
    · split at h <;> cases h; decide
    · cases h
    · cases h

theorem take_error {d : Char} {a : Arg V} {value : Str} {next : Option Str} {e : Err}
    (h : CmdLine.takeValue d a value next = .error (.fail e)) :
    e ∈ ofArgument ∧ (e ∈ quoting → value ≠ [] ∨ ∃ s, next = some s) := by
  unfold CmdLine.takeValue at h
  split at h
  · cases h; exact ⟨by decide, fun hq => absurd hq (by decide)⟩
  · split at h
    · split at h
      · rename_i s
        cases h1 : CmdLine.extractValue a s with
        | ok b => rw [h1] at h; cases h
        | error e' =>
          rw [h1] at h
          have h2 : e' = .fail e := by simpa [Except.map] using h
          subst h2
          have := extract_error h1
          refine ⟨?_, fun _ => .inr ⟨s, rfl⟩⟩
          simp [quoting, ofArgument] at this ⊢
          tauto
      · cases h; exact ⟨by decide, fun hq => absurd hq (by decide)⟩
    · rename_i hv
      cases h1 : CmdLine.extractValue a value with
      | ok b => rw [h1] at h; cases h
      | error e' =>
        rw [h1] at h
        have h2 : e' = .fail e := by simpa [Except.map] using h
        subst h2
        have := extract_error h1
        refine ⟨?_, fun _ => .inl hv⟩
        simp [quoting, ofArgument] at this ⊢
        tauto

theorem visit_error {a : Arg V} {ign : Bool} {e : Err} : CmdLine.visit a ign ≠ .error (.fail e) := by
  unfold CmdLine.visit
  split <;> simp

/-- The ways an argument can reject a text. -/
inductive Rejects (d : Char) (tok : Str) (next : Option Str) (a : Arg V) (e : Err) : Prop
  | unlabeled (h : a.unlabeled = true) (hb : CmdLine.hasBlanks tok = false) (he : e ∈ quoting)
  | value (h : a.unlabeled = false) (hb : CmdLine.hasBlanks tok = false)
      (hm : CmdLine.argMatches a (CmdLine.trimFlag d tok).1 = true) (he : e ∈ ofArgument)
      (hq : e ∈ quoting → (CmdLine.trimFlag d tok).2 ≠ [] ∨ ∃ s, next = some s)
  | switch (he : e = .alreadySet) (hm : CmdLine.argMatches a tok = true ∨ (CmdLine.combinedMatch a tok).isSome = true)

theorem process_error {d : Char} {ign : Bool} {tok : Str} {next : Option Str} {a : Arg V} {e : Err}
    (h : CmdLine.processArg d ign tok next a = .error (.fail e)) : Rejects d tok next a e := by
  unfold CmdLine.processArg at h
  split at h
  · rename_i hu
    unfold CmdLine.processUnlabeled at h
    split at h
    · cases h
    · split at h
      · cases h
      · rename_i hb
        split at h
        · rename_i e' he
          cases h
          exact .unlabeled hu (by simpa using hb) (extract_error he)
        · cases h
  · rename_i hu
    split at h
    · unfold CmdLine.processValue at h
      split at h
      · cases h
      · split at h
        · cases h
        · rename_i hb
          split at h
          · rename_i hm
            split at h
            · cases h
              exact .value (by simpa using hu) (by simpa using hb) hm (by decide) (fun hq => absurd hq (by decide))
            · split at h
              · rename_i e' he
                cases h
                obtain ⟨h1, h2⟩ := take_error he
                exact .value (by simpa using hu) (by simpa using hb) hm h1 h2
              · split at h
                · rename_i e' he
                  cases h
                  exact absurd he visit_error
                · cases h
          · cases h
    · unfold CmdLine.processMulti at h
      split at h
      · cases h
      · split at h
        · cases h
        · rename_i hb
          split at h
          · rename_i hm
            split at h
            · rename_i e' he
              cases h
              obtain ⟨h1, h2⟩ := take_error he
              exact .value (by simpa using hu) (by simpa using hb) hm h1 h2
            · split at h
              · rename_i e' he
                cases h
                exact absurd he visit_error
              · cases h
          · cases h
    · unfold CmdLine.processSwitch at h
      split at h
      · cases h
      · split at h
        · rename_i hm
          split at h
          · cases h; exact .switch rfl (.inl hm)
          · split at h
            · rename_i e' he
              cases h
              exact absurd he visit_error
            · cases h
        · split at h
          · cases h
          · rename_i tok1 hc
            split at h
            · split at h
              · cases h; exact .switch rfl (.inr (by rw [hc]; rfl))
              · split at h
                · rename_i e' he
                  cases h
                  exact absurd he visit_error
                · cases h
            · split at h
              · cases h; exact .switch rfl (.inr (by rw [hc]; rfl))
              · split at h
                · rename_i e' he
                  cases h
                  exact absurd he visit_error
                · cases h
    · unfold CmdLine.processMultiSwitch at h
      split at h
      · cases h
      · split at h
        · split at h
          · rename_i e' he
            cases h
            exact absurd he visit_error
          · cases h
        · split at h
          · cases h
          · split at h
            · cases h
            · split at h
              · rename_i e' he
                cases h
                exact absurd he visit_error
              · cases h

/-! ## From the text to the word -/

theorem star_mem {w tok : Str} (h : List.Forall₂ (fun c c' => c' = c ∨ c' = '*') w tok) {c : Char} (hc : c ∈ tok)
    (hs : c ≠ '*') : c ∈ w := by
  induction h with
  | nil => exact absurd hc (by simp)
  | cons h1 _ ih =>
    rcases List.mem_cons.1 hc with rfl | hc
    · rcases h1 with h1 | h1
      · rw [h1]; exact List.mem_cons_self
      · exact absurd h1 hs
    · exact List.mem_cons_of_mem _ (ih hc)

theorem star_eq {w tok : Str} (h : List.Forall₂ (fun c c' => c' = c ∨ c' = '*') w tok) (hs : '*' ∉ tok) : tok = w := by
  induction h with
  | nil => rfl
  | cons h1 _ ih =>
    simp only [List.mem_cons, not_or] at hs
    rcases h1 with h1 | h1
    · rw [h1, ih hs.2]
    · exact absurd h1.symm hs.1

theorem star_noblanks {w tok : Str} (h : Starred w tok) (hb : CmdLine.hasBlanks tok = false) : tok = w := by
  obtain ⟨h1, h2, _⟩ := h
  cases h2 with
  | nil => rfl
  | cons hc ht =>
    simp only [List.head?_cons, Option.some.injEq] at h1
    rw [star_eq ht (by simpa [CmdLine.hasBlanks, CmdLine.blankChar] using hb), h1]

theorem trim_prefix (d : Char) (w : Str) : (CmdLine.trimFlag d w).1 <+: w := by
  unfold CmdLine.trimFlag
  split
  · exact List.take_prefix _ _
  · exact List.prefix_rfl

theorem trim_value (d : Char) (w : Str) (h : (CmdLine.trimFlag d w).2 ≠ []) :
    ∃ p, p ++ [d] ++ (CmdLine.trimFlag d w).2 = w := by
  unfold CmdLine.trimFlag at h ⊢
  split
  · rename_i hp
    refine ⟨w.take (CmdLine.delimPos d w), ?_⟩
    unfold CmdLine.delimPos at hp ⊢
    cases hf : w.findIdx? (· = d) with
    | none => rw [hf] at hp; simp at hp
    | some i =>
      simp only
      obtain ⟨hi, hd, _⟩ := List.findIdx?_eq_some_iff_getElem.1 hf
      have hd : w[i] = d := by simpa using hd
      have : w.drop i = d :: w.drop (i + 1) := by rw [List.drop_eq_getElem_cons hi, hd]
      calc w.take i ++ [d] ++ w.drop (i + 1) = w.take i ++ (d :: w.drop (i + 1)) := by simp
        _ = w.take i ++ w.drop i := by rw [this]
        _ = w := List.take_append_drop _ _
  · rename_i hp
    rw [if_neg hp] at h
    exact absurd rfl h

theorem matches_prefix {a : Arg V} {w s : Str} (h : CmdLine.argMatches a s = true) (hp : s <+: w) : Mentions a w := by
  unfold CmdLine.argMatches at h
  rcases Bool.or_eq_true_iff.1 h with h | h
  · obtain ⟨h1, h2⟩ := Bool.and_eq_true_iff.1 h
    have h1 : s = ['-'] ++ a.flag := by simpa [CmdLine.flagStartString] using of_decide_eq_true h1
    subst h1
    exact .inr (.inl ⟨by simpa using h2, hp⟩)
  · have h1 : s = "--".toList ++ a.name := by simpa [CmdLine.nameStartString] using of_decide_eq_true h
    subst h1
    exact .inr (.inr (.inl hp))

theorem matches_star {a : Arg V} {w tok : Str} (hs : Starred w tok) (hf : '*' ∉ a.flag)
    (h : CmdLine.argMatches a tok = true) : tok = w := by
  unfold CmdLine.argMatches at h
  rcases Bool.or_eq_true_iff.1 h with h | h
  · obtain ⟨h1, h2⟩ := Bool.and_eq_true_iff.1 h
    have h1 : tok = ['-'] ++ a.flag := by simpa [CmdLine.flagStartString] using of_decide_eq_true h1
    refine star_eq hs.2.1 ?_
    rw [h1]
    simp [hf]
  · have h1 : tok = '-' :: '-' :: a.name := by simpa [CmdLine.nameStartString] using of_decide_eq_true h
    refine hs.2.2 (.inr ?_)
    have h2 := hs.2.1
    rw [h1] at h2
    cases h2 with
    | cons hc ht =>
      cases ht with
      | cons hc' ht' =>
        rcases hc with rfl | hc
        · rcases hc' with rfl | hc'
          · rfl
          · exact absurd hc' (by decide)
        · exact absurd hc (by decide)

theorem blankFirst_some {f : Char} : ∀ {s : Str}, (CmdLine.blankFirst f s).isSome = true → f ∈ s
  | [], h => by simp [CmdLine.blankFirst] at h
  | c :: cs, h => by
    unfold CmdLine.blankFirst at h
    split at h
    · rename_i hc; rw [hc]; exact List.mem_cons_self
    · rw [Option.isSome_map] at h
      exact List.mem_cons_of_mem _ (blankFirst_some h)

theorem combined_mentions {a : Arg V} {w tok : Str} (hs : Starred w tok) (hf : '*' ∉ a.flag) (hl : a.flag.length ≤ 1)
    (hn : '\x00' ∉ w) (h : (CmdLine.combinedMatch a tok).isSome = true) : Mentions a w := by
  unfold CmdLine.combinedMatch at h
  split at h
  · cases h
  · rename_i c cs
    split at h
    · cases h
    · rename_i hc
      split at h
      · cases h
      · rw [Option.isSome_map] at h
        have hm := blankFirst_some h
        have hc : c = '-' := by simpa [CmdLine.flagStart] using hc
        subst hc
        obtain ⟨h1, h2, _⟩ := hs
        cases h2 with
        | cons hd ht =>
          simp only [List.head?_cons, Option.some.injEq] at h1
          subst h1
          match hfl : a.flag with
          | [] =>
            rw [hfl] at hm
            have := star_mem ht (c := '\x00') hm (by decide)
            exact absurd (List.mem_cons_of_mem _ this) hn
          | [f] =>
            rw [hfl] at hm
            have hne : f ≠ '*' := by rintro rfl; exact hf (by rw [hfl]; exact List.mem_cons_self)
            exact .inr (.inr (.inr ⟨f, _, hfl, rfl, star_mem ht hm hne⟩))
          | _ :: _ :: _ => rw [hfl] at hl; simp at hl

/-- What is said about an argument. -/
def About (descr : Nat → Str) (d : Char) (argv : List Str) (args : List (Arg V)) (e : Err) (x : Exc) : Prop :=
  e ∈ ofArgument ∧ ∃ a ∈ args, ∃ w ∈ argv, Mentions a w ∧ x.id = label a.flag a.name ∧
    ∃ val, x.text = sentence val (descr a.id) e ∧ (e ∈ quoting → Stands d argv val)

theorem toStr_label (a : Arg V) : toStr a = label a.flag a.name := by
  unfold toStr label
  by_cases h : a.flag = []
  · simp [h, CmdLine.nameStartString]
  · simp [h, CmdLine.nameStartString, CmdLine.flagStartString]

theorem complaint_said (descr : Str) (a : Arg V) (val : Str) (e : Err) (h : e ∈ ofArgument) :
    (complaint descr a val e).id = label a.flag a.name ∧ (complaint descr a val e).text = sentence val descr e := by
  rw [← toStr_label]
  cases e <;> first | exact absurd h (by decide) | exact ⟨rfl, rfl⟩

theorem rejects_about {descr : Nat → Str} {d : Char} {argv : List Str} {w tok : Str} {next : Option Str} {a : Arg V}
    {e : Err} (h : Rejects d tok next a e) (hs : Starred w tok) (hw : w ∈ argv) (hn : ∀ s, next = some s → s ∈ argv)
    (hf : '*' ∉ a.flag) (hl : a.flag.length ≤ 1) (hz : '\x00' ∉ w) :
    About descr d argv [a] e (complaint (descr a.id) a (valueText d tok next a) e) := by
  cases h with
  | unlabeled hu hb he =>
    have ho : e ∈ ofArgument := by revert he; cases e <;> decide
    obtain ⟨h1, h2⟩ := complaint_said (descr a.id) a (valueText d tok next a) e ho
    refine ⟨ho, a, List.mem_cons_self, w, hw, .inl hu, h1, _, h2, fun _ => .inl ?_⟩
    unfold valueText
    rw [if_pos hu, star_noblanks hs hb]
    exact hw
  | value hu hb hm ho hq =>
    obtain ⟨h1, h2⟩ := complaint_said (descr a.id) a (valueText d tok next a) e ho
    have ht := star_noblanks hs hb
    subst ht
    refine ⟨ho, a, List.mem_cons_self, tok, hw, matches_prefix hm (trim_prefix d tok), h1, _, h2, fun he => ?_⟩
    unfold valueText
    rw [if_neg (by simp [hu])]
    split
    · rename_i hv
      rcases hq he with h | ⟨s, h⟩
      · exact absurd hv h
      · subst h; exact .inl (hn s rfl)
    · rename_i hv
      obtain ⟨p, hp⟩ := trim_value d tok hv
      exact .inr ⟨p, by rw [hp]; exact hw⟩
  | switch he hm =>
    subst he
    obtain ⟨h1, h2⟩ := complaint_said (descr a.id) a (valueText d tok next a) .alreadySet (by decide)
    refine ⟨by decide, a, List.mem_cons_self, w, hw, ?_, h1, _, h2, fun he => absurd he (by decide)⟩
    rcases hm with hm | hm
    · have := matches_star hs hf hm
      subst this
      exact matches_prefix hm List.prefix_rfl
    · exact combined_mentions hs hf hl hz hm

/-- What never changes while parsing, and is all the messages depend on. -/
structure Plain (a : Arg V) : Prop where
  star : '*' ∉ a.flag
  len : a.flag.length ≤ 1
  sane : CmdLine.Sane a

theorem Plain.congr {a b : Arg V} (h : Plain a) (hk : key b = key a) : Plain b :=
  ⟨CmdLine.key_flag hk ▸ h.star, CmdLine.key_flag hk ▸ h.len, (CmdLine.key_sane hk ⟨h.sane, h.len⟩).1⟩

theorem About.congr {descr : Nat → Str} {d : Char} {argv : List Str} {args args' : List (Arg V)} {e : Err} {x : Exc}
    (h : About descr d argv args e x) (hk : args.map key = args'.map key) : About descr d argv args' e x := by
  obtain ⟨ho, a, ha, w, hw, hm, h1, val, h2, h3⟩ := h
  have : key a ∈ args'.map key := hk ▸ List.mem_map_of_mem ha
  obtain ⟨b, hb, hkb⟩ := List.mem_map.1 this
  refine ⟨ho, b, hb, w, hw, ?_, ?_, val, ?_, h3⟩
  · unfold Mentions at hm ⊢
    rw [CmdLine.key_unlabeled hkb, CmdLine.key_flag hkb, CmdLine.key_name hkb]
    exact hm
  · rw [CmdLine.key_flag hkb, CmdLine.key_name hkb]; exact h1
  · rw [CmdLine.key_id hkb]; exact h2

theorem About.mono {descr : Nat → Str} {d : Char} {argv : List Str} {args args' : List (Arg V)} {e : Err} {x : Exc}
    (h : About descr d argv args e x) (hs : ∀ a ∈ args, a ∈ args') : About descr d argv args' e x := by
  obtain ⟨ho, a, ha, r⟩ := h
  exact ⟨ho, a, hs a ha, r⟩

theorem scan_said {descr : Nat → Str} {d : Char} {argv : List Str} {w : Str} {next : Option Str} (hw : w ∈ argv)
    (hn : ∀ s, next = some s → s ∈ argv) (hz : '\x00' ∉ w) : ∀ (as : List (Arg V)) (ign : Bool) (tok : Str),
    (∀ a ∈ as, Plain a) → Starred w tok →
    match scan descr d ign tok next as with
    | .error (.said e x) => About descr d argv as e x
    | .error _ => True
    | .ok r => r.args.map key = as.map key ∧ Starred w r.tok := by
  intro as
  induction as with
  | nil => intro ign tok _ hs; exact ⟨rfl, hs⟩
  | cons a as ih =>
    intro ign tok hp hs
    have ha := hp a List.mem_cons_self
    unfold scan
    cases hr : CmdLine.processArg d ign tok next a with
    | error st =>
      cases st with
      | fail e =>
        refine (rejects_about (process_error hr) hs hw hn ha.star ha.len hz).mono ?_
        intro b hb
        rw [List.mem_singleton.1 hb]
        exact List.mem_cons_self
      | help => trivial
      | version => trivial
      | ub => trivial
    | ok r =>
      have hk := (CmdLine.processArg_did ha.sane hr).key_eq
      have ht := starTrans hs (process_star hr)
      simp only
      by_cases hm : r.matched = true
      · rw [if_pos hm]
        exact ⟨by simp [hk], ht⟩
      · rw [if_neg hm]
        have := ih r.ign r.tok (fun b hb => hp b (List.mem_cons_of_mem _ hb)) ht
        cases hq : scan descr d r.ign r.tok next as with
        | error st =>
          rw [hq] at this
          cases st with
          | said e x => exact About.mono this fun b hb => List.mem_cons_of_mem _ hb
          | help => trivial
          | version => trivial
          | ub => trivial
        | ok q =>
          rw [hq] at this
          exact ⟨by simp [hk, this.1], this.2⟩

theorem check_key (xors : List (List Nat)) (args : List (Arg V)) (id : Nat) :
    (CmdLine.check xors args id).1.map key = args.map key := by
  unfold CmdLine.check
  split
  · simp only [List.map_map]
    refine List.map_congr_left fun a _ => ?_
    simp only [Function.comp, CmdLine.markGroup]
    split
    · split <;> rfl
    · split <;> rfl
  · rfl

/-- What is said by the loop. -/
def Told (descr : Nat → Str) (d : Char) (argv : List Str) (args : List (Arg V)) (e : Err) (x : Exc) : Prop :=
  About descr d argv args e x ∨
    e = .noMatch ∧ x.text = sentence [] [] .noMatch ∧ ∃ w ∈ argv, Starred w x.id

theorem plain_of_key {args args' : List (Arg V)} (h : ∀ a ∈ args, Plain a) (hk : args'.map key = args.map key) :
    ∀ a ∈ args', Plain a := by
  intro a ha
  have : key a ∈ args.map key := hk ▸ List.mem_map_of_mem ha
  obtain ⟨b, hb, hkb⟩ := List.mem_map.1 this
  exact (h b hb).congr hkb.symm

theorem loop_said {descr : Nat → Str} {xors : List (List Nat)} {d : Char} {argv : List Str}
    (hz : ∀ w ∈ argv, '\x00' ∉ w) : ∀ (toks : List Str) (skip : Bool) (args : List (Arg V)) (ign : Bool) (count : Nat)
    (e : Err) (x : Exc), (∀ w ∈ toks, w ∈ argv) → (∀ a ∈ args, Plain a) →
    loop descr xors d skip toks args ign count = .error (.said e x) → Told descr d argv args e x := by
  intro toks
  induction toks with
  | nil => intro skip args ign count e x _ _ h; cases skip <;> (unfold loop at h; cases h)
  | cons w toks ih =>
    intro skip args ign count e x hsub hp h
    have hsub' : ∀ w ∈ toks, w ∈ argv := fun v hv => hsub v (List.mem_cons_of_mem _ hv)
    cases skip with
    | true => unfold loop at h; exact ih _ _ _ _ _ _ hsub' hp h
    | false =>
      unfold loop at h
      have hw := hsub w List.mem_cons_self
      have hn : ∀ s, toks.head? = some s → s ∈ argv := fun s hs => hsub' s (List.mem_of_mem_head? hs)
      have hsc := scan_said (descr := descr) (d := d) hw hn (hz w hw) args ign w hp (starRefl w)
      cases hr : scan descr d ign w toks.head? args with
      | error st =>
        rw [hr] at h hsc
        cases h
        exact .inl hsc
      | ok r =>
        rw [hr] at h hsc
        simp only at h hsc
        have back : ∀ args', args'.map key = args.map key → Told descr d argv args' e x → Told descr d argv args e x := by
          intro args' hk ht
          rcases ht with ht | ht
          · exact .inl (ht.congr hk)
          · exact .inr ht
        cases hh : r.hit with
        | some id =>
          rw [hh] at h
          have hk : (CmdLine.check xors r.args id).1.map key = args.map key := (check_key _ _ _).trans hsc.1
          exact back _ hk (ih _ _ _ _ _ _ hsub' (plain_of_key hp hk) h)
        | none =>
          rw [hh] at h
          simp only at h
          by_cases h1 : CmdLine.emptyCombined r.tok = true
          · rw [if_pos h1] at h
            exact back _ hsc.1 (ih _ _ _ _ _ _ hsub' (plain_of_key hp hsc.1) h)
          · rw [if_neg h1] at h
            by_cases h2 : r.ign = true
            · rw [if_pos h2] at h
              exact back _ hsc.1 (ih _ _ _ _ _ _ hsub' (plain_of_key hp hsc.1) h)
            · rw [if_neg h2] at h
              cases h
              exact .inr ⟨rfl, rfl, w, hw, hsc.2⟩

end Ecl.CmdLineSaid
