import Verif.Spec.CmdLineProcess
import Mathlib.Data.List.Induction

/-! # Lemmas for several command lines in one process -/
set_option autoImplicit false
set_option linter.unusedSimpArgs false

namespace Ecl.CmdLine.Process
open Ecl.CmdLine Ecl.Spec

variable {V : Type}

/-! ## Ignoring the rest -/

/-- Only the switch of the command line itself ignores the rest. -/
def Ign (a : Arg V) : Prop :=
  a.visitor = .ignore → a.unlabeled = false ∧ a.flag = ['-'] ∧ a.name = ignoreName ∧ ∃ b, a.slot = .switch b

theorem blankFirst_mem {f : Char} : ∀ {s t : Str}, blankFirst f s = some t → '-' ∈ t → '-' ∈ s
  | [], _, h, _ => by simp [blankFirst] at h
  | c :: cs, t, h, hm => by
    simp only [blankFirst] at h
    split at h
    · cases h
      rcases List.mem_cons.1 hm with e | hm
      · exact absurd e (by decide)
      · exact List.mem_cons_of_mem _ hm
    · cases h' : blankFirst f cs with
      | none => simp [h'] at h
      | some u =>
        rw [h'] at h
        cases h
        rcases List.mem_cons.1 hm with e | hm
        · rw [e]; exact List.mem_cons_self
        · exact List.mem_cons_of_mem _ (blankFirst_mem h' hm)

theorem blankFirst_found {f : Char} : ∀ {s t : Str}, blankFirst f s = some t → f ∈ s
  | [], _, h => by simp [blankFirst] at h
  | c :: cs, t, h => by
    simp only [blankFirst] at h
    split at h
    · rename_i e; rw [e]; exact List.mem_cons_self
    · cases h' : blankFirst f cs with
      | none => simp [h'] at h
      | some u => exact List.mem_cons_of_mem _ (blankFirst_found h')

theorem mayIgnore_tail {t : Str} (h : MayIgnore t) : ∃ s, t = '-' :: s ∧ '-' ∈ s := by
  rcases h with rfl | rfl | ⟨s, rfl, _, h⟩
  · exact ⟨['-'], rfl, by simp⟩
  · exact ⟨_, rfl, by decide⟩
  · exact ⟨s, rfl, h⟩

theorem combinedMatch_form {a : Arg V} {t t' : Str} (h : combinedMatch a t = some t') :
    ∃ s s', t = '-' :: s ∧ t' = '-' :: s' ∧ s.head? ≠ some '-' ∧ blankFirst (a.flag.headD '\x00') s = some s' := by
  cases t with
  | nil => simp [combinedMatch] at h
  | cons c cs =>
    simp only [combinedMatch] at h
    split at h
    · cases h
    · rename_i hc
      split at h
      · cases h
      · rename_i h2
        cases h' : blankFirst (a.flag.headD '\x00') cs with
        | none => rw [h'] at h; cases h
        | some u =>
          rw [h'] at h
          cases h
          have hc : c = '-' := by simpa [flagStart] using hc
          subst hc
          refine ⟨cs, u, rfl, rfl, ?_, h'⟩
          intro e
          cases cs with
          | nil => simp at e
          | cons x xs =>
            simp only [List.head?_cons, Option.some.injEq] at e
            subst e
            exact h2 rfl

theorem combinedMatch_may {a : Arg V} {t t' : Str} (h : combinedMatch a t = some t') (hm : MayIgnore t') :
    MayIgnore t := by
  obtain ⟨s, s', rfl, rfl, h1, h2⟩ := combinedMatch_form h
  obtain ⟨u, hu, hd⟩ := mayIgnore_tail hm
  cases hu
  exact .inr (.inr ⟨s, rfl, h1, blankFirst_mem h2 hd⟩)

theorem combinedMatch_ignore {a : Arg V} {t t' : Str} (h : combinedMatch a t = some t') (hf : a.flag = ['-']) :
    MayIgnore t := by
  obtain ⟨s, s', rfl, rfl, h1, h2⟩ := combinedMatch_form h
  rw [hf] at h2
  exact .inr (.inr ⟨s, rfl, h1, blankFirst_found h2⟩)

theorem argMatches_ignore {a : Arg V} {t : Str} (h : argMatches a t = true) (hf : a.flag = ['-'])
    (hn : a.name = ignoreName) : MayIgnore t := by
  simp only [argMatches, hf, hn, Bool.or_eq_true, Bool.and_eq_true, decide_eq_true_eq] at h
  rcases h with ⟨rfl, _⟩ | rfl
  · exact .inl rfl
  · exact .inr (.inl rfl)

theorem blankAll_may {a : Arg V} : ∀ {n : Nat} {s t : Str} {k : Nat}, blankAll a n s = some (t, k) → MayIgnore t →
    MayIgnore s
  | 0, s, t, k, h, hm => by
    simp only [blankAll] at h
    split at h
    · cases h; exact hm
    · cases h
  | n + 1, s, t, k, h, hm => by
    simp only [blankAll] at h
    split at h
    · cases h; exact hm
    · rename_i s' hs
      cases h' : blankAll a n s' with
      | none => simp [h'] at h
      | some r =>
        rw [h'] at h
        cases h
        exact combinedMatch_may hs (blankAll_may h' hm)

theorem extractValue_same {a a' : Arg V} {s : Str} (h : extractValue a s = .ok a') :
    a'.visitor = a.visitor ∧ a'.unlabeled = a.unlabeled ∧ a'.flag = a.flag ∧ a'.name = a.name ∧
      ∀ b, a'.slot = .switch b → a.slot = .switch b := by
  unfold extractValue at h
  repeat' split at h
  all_goals first | (cases h; done) | skip
  all_goals
    cases h
    refine ⟨rfl, rfl, rfl, rfl, ?_⟩
    simp_all

theorem extractValue_ign {a a' : Arg V} {s : Str} (h : extractValue a s = .ok a') (hi : a.visitor ≠ .ignore) :
    a'.visitor ≠ .ignore := by
  rw [(extractValue_same h).1]; exact hi

theorem takeValue_ign {d : Char} {a a' : Arg V} {v : Str} {nx : Option Str} {b : Bool}
    (h : takeValue d a v nx = .ok (a', b)) (hi : a.visitor ≠ .ignore) : a'.visitor ≠ .ignore := by
  unfold takeValue at h
  repeat' split at h
  all_goals first | (cases h; done) | skip
  · rename_i s
    cases h' : extractValue a s with
    | error e => simp [h', Except.map] at h
    | ok c => simp only [h', Except.map, Except.ok.injEq, Prod.mk.injEq] at h; rw [← h.1]; exact extractValue_ign h' hi
  · cases h' : extractValue a v with
    | error e => simp [h', Except.map] at h
    | ok c => simp only [h', Except.map, Except.ok.injEq, Prod.mk.injEq] at h; rw [← h.1]; exact extractValue_ign h' hi

theorem visit_other {a : Arg V} {g g' : Bool} (h : visit a g = .ok g') (hi : a.visitor ≠ .ignore) : g' = g := by
  unfold visit at h
  split at h <;> simp_all

theorem visit_mono {a : Arg V} {g g' : Bool} (h : visit a g = .ok g') (hg : g = true) : g' = true := by
  unfold visit at h
  split at h <;> simp_all

/-- What `processArg` does to the variable and the text. -/
structure Fine (ign : Bool) (tok : Str) (r : Step V) : Prop where
  arg : Ign r.arg
  mono : ign = true → r.ign = true
  only : r.ign = true → ign = true ∨ MayIgnore tok
  tok : MayIgnore r.tok → MayIgnore tok

theorem Fine.same {ign : Bool} {tok : Str} {a : Arg V} {b s : Bool} (h : Ign a) : Fine ign tok ⟨b, a, tok, s, ign⟩ :=
  ⟨h, id, .inl, id⟩

theorem fine_visit {ign ign' : Bool} {tok tok' : Str} {a a' : Arg V} {b s : Bool} (ha : Ign a')
    (hv : visit a ign = .ok ign') (hi : a.visitor = .ignore → MayIgnore tok) (ht : MayIgnore tok' → MayIgnore tok) :
    Fine ign tok ⟨b, a', tok', s, ign'⟩ := by
  refine ⟨ha, fun h => visit_mono hv h, fun h => ?_, ht⟩
  by_cases e : a.visitor = .ignore
  · exact .inr (hi e)
  · have := visit_other hv e
    left
    rw [← this]; exact h

theorem Ign.of_not {a : Arg V} (h : a.visitor ≠ .ignore) : Ign a := fun e => absurd e h

theorem toggle_ign {a : Arg V} (h : Ign a) : Ign (toggle a) := by
  intro e
  obtain ⟨h1, h2, h3, b, hb⟩ := h e
  refine ⟨h1, h2, h3, !b, ?_⟩
  simp [toggle, hb]

theorem bump_ign {a : Arg V} {k : Nat} (h : Ign a) : Ign (bump a k) := by
  intro e
  obtain ⟨h1, h2, h3, b, hb⟩ := h e
  refine ⟨h1, h2, h3, b, ?_⟩
  simp [bump, hb]

theorem processArg_fine {d : Char} {ign : Bool} {tok : Str} {nx : Option Str} {a : Arg V} {r : Step V} (ha : Ign a)
    (h : processArg d ign tok nx a = .ok r) : Fine ign tok r := by
  unfold processArg at h
  split at h
  · rename_i hu
    have hn : a.visitor ≠ .ignore := fun e => by rw [(ha e).1] at hu; cases hu
    unfold processUnlabeled at h
    repeat' split at h
    · cases h; exact .same ha
    · cases h; exact .same ha
    · cases h
    · rename_i a' ha'
      cases h
      have h' := extractValue_ign ha' hn
      exact .same (.of_not h')
  · split at h
    · rename_i v hs
      have hn : a.visitor ≠ .ignore := fun e => by obtain ⟨b, hb⟩ := (ha e).2.2.2; rw [hb] at hs; cases hs
      unfold processValue at h
      repeat' split at h
      all_goals first | (cases h; done) | (cases h; exact .same ha) | skip
      rename_i a' s ht _ ign' hv
      cases h
      have h' := takeValue_ign ht hn
      exact fine_visit (a := a') (.of_not h') hv (fun e => absurd e h') id
    · rename_i v hs
      have hn : a.visitor ≠ .ignore := fun e => by obtain ⟨b, hb⟩ := (ha e).2.2.2; rw [hb] at hs; cases hs
      unfold processMulti at h
      repeat' split at h
      all_goals first | (cases h; done) | (cases h; exact .same ha) | skip
      rename_i a' s ht _ ign' hv
      cases h
      have h' := takeValue_ign ht hn
      exact fine_visit (a := a') (.of_not h') hv (fun e => absurd e h') id
    · unfold processSwitch at h
      split at h
      · cases h; exact .same ha
      · split at h
        · rename_i hm
          repeat' split at h
          all_goals first | (cases h; done) | skip
          rename_i ign' hv
          cases h
          exact fine_visit (toggle_ign ha) hv (fun e => argMatches_ignore hm (ha e).2.1 (ha e).2.2.1) id
        · split at h
          · cases h; exact .same ha
          · rename_i tok1 hc
            repeat' split at h
            all_goals first | (cases h; done) | skip
            all_goals
              rename_i ign' hv
              cases h
              exact fine_visit (toggle_ign ha) hv (fun e => combinedMatch_ignore hc (ha e).2.1) (combinedMatch_may hc)
    · rename_i n hs
      have hn : a.visitor ≠ .ignore := fun e => by obtain ⟨b, hb⟩ := (ha e).2.2.2; rw [hb] at hs; cases hs
      unfold processMultiSwitch at h
      split at h
      · cases h; exact .same ha
      · split at h
        · split at h
          · cases h
          · rename_i ign' hv
            cases h
            exact fine_visit (bump_ign ha) hv (fun e => absurd e hn) id
        · split at h
          · cases h; exact .same ha
          · rename_i tok1 hc
            split at h
            · cases h
            · rename_i tok2 k hb
              split at h
              · cases h
              · rename_i ign' hv
                cases h
                exact fine_visit (bump_ign ha) hv (fun e => absurd e hn)
                  (fun hm => combinedMatch_may hc (blankAll_may hb hm))

theorem scan_fine {d : Char} {nx : Option Str} : ∀ {as : List (Arg V)} {ign : Bool} {tok : Str} {r : Scan V},
    (∀ a ∈ as, Ign a) → scan d ign tok nx as = .ok r →
    (∀ a ∈ r.args, Ign a) ∧ (ign = true → r.ign = true) ∧ (r.ign = true → ign = true ∨ MayIgnore tok)
  | [], ign, tok, r, _, h => by
    simp only [scan] at h
    cases h
    exact ⟨by simp, id, .inl⟩
  | a :: as, ign, tok, r, ha, h => by
    simp only [scan] at h
    split at h
    · cases h
    · rename_i q hq
      have f := processArg_fine (ha a (by simp)) hq
      split at h
      · cases h
        refine ⟨?_, f.mono, f.only⟩
        intro b hb
        rcases List.mem_cons.1 hb with rfl | hb
        · exact f.arg
        · exact ha b (by simp [hb])
      · split at h
        · cases h
        · rename_i u hu
          cases h
          obtain ⟨g1, g2, g3⟩ := scan_fine (fun b hb => ha b (by simp [hb])) hu
          refine ⟨?_, fun e => g2 (f.mono e), fun e => ?_⟩
          · intro b hb
            rcases List.mem_cons.1 hb with rfl | hb
            · exact f.arg
            · exact g1 b hb
          · rcases g3 e with e | e
            · exact f.only e
            · exact .inr (f.tok e)

theorem check_ign {xors : List (List Nat)} {args : List (Arg V)} {id : Nat} (h : ∀ a ∈ args, Ign a) :
    ∀ a ∈ (check xors args id).1, Ign a := by
  intro a ha
  unfold check at ha
  split at ha
  · rename_i g _
    obtain ⟨b, hb, rfl⟩ := List.mem_map.1 ha
    have := h b hb
    unfold markGroup
    repeat' split
    all_goals exact this
  · exact h a ha

theorem loop_fine {xors : List (List Nat)} {d : Char} : ∀ {argv : List Str} {skip : Bool} {args : List (Arg V)}
    {ign : Bool} {n : Nat} {args' : List (Arg V)} {ign' : Bool} {n' : Nat}, (∀ a ∈ args, Ign a) →
    loop xors d skip argv args ign n = .ok (args', ign', n') →
    (∀ a ∈ args', Ign a) ∧ (ign = true → ign' = true) ∧ (ign' = true → ign = true ∨ ∃ t ∈ argv, MayIgnore t)
  | [], _, _, _, _, _, _, _, ha, h => by
    simp only [loop] at h
    cases h
    exact ⟨ha, id, .inl⟩
  | _ :: toks, true, _, _, _, _, _, _, ha, h => by
    simp only [loop] at h
    obtain ⟨g1, g2, g3⟩ := loop_fine ha h
    exact ⟨g1, g2, fun e => (g3 e).imp id fun ⟨t, ht, hm⟩ => ⟨t, by simp [ht], hm⟩⟩
  | tok :: toks, false, args, ign, _, _, _, _, ha, h => by
    simp only [loop] at h
    split at h
    · cases h
    · rename_i r hr
      obtain ⟨f1, f2, f3⟩ := scan_fine ha hr
      have fin : ∀ {skip : Bool} {as : List (Arg V)} {n n' : Nat} {args' : List (Arg V)} {ign' : Bool},
          (∀ a ∈ as, Ign a) → loop xors d skip toks as r.ign n = .ok (args', ign', n') →
          (∀ a ∈ args', Ign a) ∧ (ign = true → ign' = true) ∧
            (ign' = true → ign = true ∨ ∃ t ∈ tok :: toks, MayIgnore t) := by
        intro skip as n n' args' ign' has hl
        obtain ⟨g1, g2, g3⟩ := loop_fine has hl
        refine ⟨g1, fun e => g2 (f2 e), fun e => ?_⟩
        rcases g3 e with e | ⟨t, ht, hm⟩
        · exact (f3 e).imp id fun hm => ⟨tok, by simp, hm⟩
        · exact .inr ⟨t, by simp [ht], hm⟩
      split at h
      · exact fin (check_ign f1) h
      · split at h
        · exact fin f1 h
        · split at h
          · exact fin f1 h
          · cases h

theorem parse_fine {c c' : T V} {argv : List Str} (ha : ∀ a ∈ c.args, Ign a) (h : parse c argv = .ok c') :
    (∀ a ∈ c'.args, Ign a) ∧ (c.ignoreRest = true → c'.ignoreRest = true) ∧
      (c'.ignoreRest = true → c.ignoreRest = true ∨ ∃ t ∈ argv, MayIgnore t) ∧ c'.optionalSeen = c.optionalSeen ∧
      c'.xors = c.xors ∧ c'.numRequired = c.numRequired := by
  unfold parse at h
  split at h
  · cases h
  · rename_i args ign count hl
    obtain ⟨g1, g2, g3⟩ := loop_fine ha hl
    repeat' split at h
    all_goals first | (cases h; done) | skip
    cases h
    exact ⟨g1, g2, g3, rfl, rfl, rfl⟩

/-- Two command lines that differ only in whether an optional unlabeled argument was seen. -/
theorem parse_same {c₁ c₂ : T V} (h1 : c₁.args = c₂.args) (h2 : c₁.xors = c₂.xors) (h3 : c₁.numRequired = c₂.numRequired)
    (h4 : c₁.delim = c₂.delim) (h5 : c₁.ignoreRest = c₂.ignoreRest) (argv : List Str) :
    match parse c₁ argv with
    | .error e => parse c₂ argv = .error e
    | .ok c => ∃ c', parse c₂ argv = .ok c' ∧ c'.args = c.args ∧ c'.xors = c.xors ∧ c'.numRequired = c.numRequired ∧
        c'.ignoreRest = c.ignoreRest := by
  unfold parse
  rw [h1, h2, h3, h4, h5]
  cases loop c₂.xors c₂.delim false argv c₂.args c₂.ignoreRest 0 with
  | error e => rfl
  | ok r =>
    obtain ⟨args, ign, count⟩ := r
    dsimp only
    by_cases g1 : count < c₂.numRequired
    · simp [g1]
    · by_cases g2 : count > c₂.numRequired
      · simp [g1, g2]
      · simp [g1, g2, h2, h3]

/-! ## Declarations -/

/-- The parts of a command line that a declaration sees, apart from the tracker. -/
structure Like (c₁ c₂ : T V) : Prop where
  args : c₁.args = c₂.args
  xors : c₁.xors = c₂.xors
  num : c₁.numRequired = c₂.numRequired

/-- An argument that may be left out. -/
def optDecl (d : Decl V) : Bool :=
  d.isUnlabeled && !d.required && match d.slot with
    | .multi _ => false
    | _ => true

theorem trackerCheck_ok {c c' : T V} {d : Decl V} (h : trackerCheck c d = .ok c') :
    c' = { c with optionalSeen := c.optionalSeen || optDecl d } := by
  unfold trackerCheck at h
  unfold optDecl
  split at h
  · rename_i hu
    split at h
    · cases h
    · rename_i ho
      cases h
      have ho : c.optionalSeen = false := by simpa using ho
      rw [hu, ho]
      cases d.slot <;> simp
  · rename_i hu
    cases h
    simp [hu]

theorem trackerCheck_same {c₁ c₂ : T V} {d : Decl V} (ho : d.isUnlabeled = true → c₁.optionalSeen = c₂.optionalSeen) :
    match trackerCheck c₁ d with
    | .error e => trackerCheck c₂ d = .error e
    | .ok _ => ∃ c', trackerCheck c₂ d = .ok c' := by
  unfold trackerCheck
  by_cases hu : d.isUnlabeled = true
  · rw [ho hu]
    by_cases h : c₂.optionalSeen = true
    · simp [hu, h]
    · simp [hu, h]
  · simp [hu]

theorem newArg_ok {c c' : T V} {d : Decl V} {n : Nat} {a : Arg V} (h : newArg c d n = .ok (c', a)) :
    c' = { c with optionalSeen := c.optionalSeen || optDecl d } ∧ a = construct d n := by
  unfold newArg at h
  split at h
  · cases h
  · split at h
    · cases h
    · rename_i c'' hc
      cases h
      exact ⟨trackerCheck_ok hc, rfl⟩

theorem newArg_same {c₁ c₂ : T V} {d : Decl V} {n : Nat} (ho : d.isUnlabeled = true → c₁.optionalSeen = c₂.optionalSeen) :
    match newArg c₁ d n with
    | .error e => newArg c₂ d n = .error e
    | .ok _ => ∃ r, newArg c₂ d n = .ok r := by
  unfold newArg
  cases argCtor (if d.isUnlabeled then [] else d.flag) d.name with
  | error e => rfl
  | ok _ =>
    have := trackerCheck_same (c₁ := c₁) (c₂ := c₂) ho
    dsimp only
    cases h : trackerCheck c₁ d with
    | error e => rw [h] at this; simp only at this ⊢; rw [this]
    | ok c =>
      rw [h] at this
      obtain ⟨c', hc'⟩ := this
      simp only
      rw [hc']
      exact ⟨_, rfl⟩

theorem newArgs_ok : ∀ {ds : List (Decl V)} {c c' : T V} {n : Nat} {as : List (Arg V)}, newArgs c ds n = .ok (c', as) →
    c' = { c with optionalSeen := c.optionalSeen || ds.any optDecl } ∧ ∀ a ∈ as, a.visitor = .none
  | [], c, c', n, as, h => by
    simp only [newArgs] at h
    cases h
    simp
  | d :: ds, c, c', n, as, h => by
    simp only [newArgs] at h
    split at h
    · cases h
    · rename_i c1 a h1
      split at h
      · cases h
      · rename_i c2 as' h2
        cases h
        obtain ⟨e1, e1'⟩ := newArg_ok h1
        obtain ⟨e2, e2'⟩ := newArgs_ok h2
        constructor
        · rw [e2, e1]; simp [Bool.or_assoc]
        · intro b hb
          rcases List.mem_cons.1 hb with rfl | hb
          · rw [e1']; rfl
          · exact e2' b hb

theorem newArgs_same : ∀ {ds : List (Decl V)} {c₁ c₂ : T V} {n : Nat},
    ((∃ d ∈ ds, d.isUnlabeled = true) → c₁.optionalSeen = c₂.optionalSeen) →
    match newArgs c₁ ds n with
    | .error e => newArgs c₂ ds n = .error e
    | .ok r => ∃ c', newArgs c₂ ds n = .ok (c', r.2)
  | [], c₁, c₂, n, _ => ⟨c₂, rfl⟩
  | d :: ds, c₁, c₂, n, ho => by
    simp only [newArgs]
    have h1 := newArg_same (c₁ := c₁) (c₂ := c₂) (d := d) (n := n) fun h => ho ⟨d, by simp, h⟩
    cases e1 : newArg c₁ d n with
    | error e => rw [e1] at h1; simp only at h1 ⊢; rw [h1]
    | ok r =>
      rw [e1] at h1
      obtain ⟨r', e2⟩ := h1
      rw [e2]
      obtain ⟨c1, a⟩ := r
      obtain ⟨c2, a'⟩ := r'
      obtain ⟨f1, g1⟩ := newArg_ok e1
      obtain ⟨f2, g2⟩ := newArg_ok e2
      have h2 := newArgs_same (ds := ds) (c₁ := c1) (c₂ := c2) (n := n + 1) (by
        rintro ⟨x, hx, hu⟩
        rw [f1, f2]
        simp only
        rw [ho ⟨x, by simp [hx], hu⟩])
      dsimp only
      cases e3 : newArgs c1 ds (n + 1) with
      | error e => rw [e3] at h2; simp only at h2 ⊢; rw [h2]
      | ok r =>
        rw [e3] at h2
        obtain ⟨c', e4⟩ := h2
        rw [e4]
        exact ⟨c', by rw [g1, g2]⟩

theorem add_ok {c c' : T V} {a : Arg V} (h : add c a = .ok c') :
    c'.optionalSeen = c.optionalSeen ∧ c'.ignoreRest = c.ignoreRest ∧ c'.delim = c.delim ∧
      ∀ b ∈ c'.args, b = a ∨ b ∈ c.args := by
  unfold add at h
  split at h
  · cases h
  · cases h
    refine ⟨rfl, rfl, rfl, ?_⟩
    intro b hb
    dsimp only at hb
    split at hb
    · rcases List.mem_append.1 hb with hb | hb
      · exact .inr hb
      · exact .inl (by simpa using hb)
    · rcases List.mem_cons.1 hb with hb | hb
      · exact .inl hb
      · exact .inr hb

theorem add_same {c₁ c₂ : T V} (h : Like c₁ c₂) (a : Arg V) :
    match add c₁ a with
    | .error e => add c₂ a = .error e
    | .ok c => ∃ c', add c₂ a = .ok c' ∧ Like c c' := by
  unfold add
  rw [h.args, h.num]
  by_cases g : c₂.args.any (same a) = true
  · simp [g]
  · simp only [g]
    exact ⟨_, rfl, ⟨rfl, h.xors, rfl⟩⟩

theorem addAll_ok : ∀ {as : List (Arg V)} {c c' : T V}, addAll c as = .ok c' →
    c'.optionalSeen = c.optionalSeen ∧ c'.ignoreRest = c.ignoreRest ∧ c'.delim = c.delim ∧
      ∀ b ∈ c'.args, (∃ a ∈ as, b.visitor = a.visitor) ∨ b ∈ c.args
  | [], c, c', h => by
    simp only [addAll] at h
    cases h
    exact ⟨rfl, rfl, rfl, fun b hb => .inr hb⟩
  | a :: as, c, c', h => by
    simp only [addAll] at h
    split at h
    · cases h
    · rename_i c1 h1
      obtain ⟨g1, g2, g3, g4⟩ := add_ok h1
      obtain ⟨f1, f2, f3, f4⟩ := addAll_ok h
      refine ⟨f1.trans g1, f2.trans g2, f3.trans g3, fun b hb => ?_⟩
      rcases f4 b hb with ⟨x, hx, e⟩ | hb
      · exact .inl ⟨x, by simp [hx], e⟩
      · rcases g4 b hb with e | hb
        · exact .inl ⟨a, by simp, by rw [e]⟩
        · exact .inr hb

theorem addAll_same : ∀ {as : List (Arg V)} {c₁ c₂ : T V}, Like c₁ c₂ →
    match addAll c₁ as with
    | .error e => addAll c₂ as = .error e
    | .ok c => ∃ c', addAll c₂ as = .ok c' ∧ Like c c'
  | [], c₁, c₂, h => ⟨c₂, rfl, h⟩
  | a :: as, c₁, c₂, h => by
    simp only [addAll]
    have h1 := add_same h { a with required := true, requireLabel := "OR required".toList }
    cases e1 : add c₁ { a with required := true, requireLabel := "OR required".toList } with
    | error e => rw [e1] at h1; simp only at h1 ⊢; rw [h1]
    | ok c =>
      rw [e1] at h1
      obtain ⟨c', e2, h2⟩ := h1
      simp only
      rw [e2]
      exact addAll_same h2

/-- One statement, started from command lines that differ in the static variables only. -/
theorem declare_same {c₁ c₂ : T V} (h : Like c₁ c₂) (s : Stmt V) (n : Nat)
    (ho : Unlabeled s → c₁.optionalSeen = c₂.optionalSeen) :
    match declare c₁ [s] n with
    | .error e => declare c₂ [s] n = .error e
    | .ok c => ∃ c', declare c₂ [s] n = .ok c' ∧ Like c c' := by
  cases s with
  | one d =>
    simp only [declare]
    have h1 := newArg_same (c₁ := c₁) (c₂ := c₂) (d := d) (n := n) fun h => ho ⟨d, by simp [declsOf], h⟩
    cases e1 : newArg c₁ d n with
    | error e => rw [e1] at h1; simp only at h1 ⊢; rw [h1]
    | ok r =>
      rw [e1] at h1
      obtain ⟨r', e2⟩ := h1
      rw [e2]
      obtain ⟨c1, a⟩ := r
      obtain ⟨c2, a'⟩ := r'
      obtain ⟨f1, rfl⟩ := newArg_ok e1
      obtain ⟨f2, rfl⟩ := newArg_ok e2
      dsimp only
      have h2 := add_same (c₁ := c1) (c₂ := c2) (by rw [f1, f2]; exact ⟨h.args, h.xors, h.num⟩) (construct d n)
      cases e3 : add c1 (construct d n) with
      | error e => rw [e3] at h2; simp only at h2 ⊢; rw [h2]
      | ok c =>
        rw [e3] at h2
        obtain ⟨c', e4, h3⟩ := h2
        rw [e4]
        exact ⟨c', rfl, h3⟩
  | xor ds =>
    simp only [declare]
    have h1 := newArgs_same (ds := ds) (c₁ := c₁) (c₂ := c₂) (n := n) ho
    cases e1 : newArgs c₁ ds n with
    | error e => rw [e1] at h1; simp only at h1 ⊢; rw [h1]
    | ok r =>
      rw [e1] at h1
      obtain ⟨c2, e2⟩ := h1
      rw [e2]
      obtain ⟨c1, as⟩ := r
      obtain ⟨f1, _⟩ := newArgs_ok e1
      obtain ⟨f2, _⟩ := newArgs_ok e2
      dsimp only [xorAdd]
      have h2 := addAll_same (as := as) (c₁ := { c1 with xors := c1.xors ++ [as.map Arg.id] })
        (c₂ := { c2 with xors := c2.xors ++ [as.map Arg.id] })
        (by rw [f1, f2]; exact ⟨h.args, by simp [h.xors], h.num⟩)
      cases e3 : addAll { c1 with xors := c1.xors ++ [as.map Arg.id] } as with
      | error e => rw [e3] at h2; simp only at h2 ⊢; rw [h2]
      | ok c =>
        rw [e3] at h2
        obtain ⟨c', e4, h3⟩ := h2
        rw [e4]
        exact ⟨c', rfl, h3⟩

theorem optDecl_iff {d : Decl V} :
    optDecl d = true ↔ d.isUnlabeled = true ∧ d.required = false ∧ ∀ vs, d.slot ≠ .multi vs := by
  unfold optDecl
  cases d.slot <;> simp

/-- What a statement does to the static variables. -/
theorem declare_statics {c c' : T V} {s : Stmt V} {n : Nat} (h : declare c [s] n = .ok c') :
    (c'.optionalSeen = true ↔ c.optionalSeen = true ∨ OptionalUnlabeled s) ∧ c'.ignoreRest = c.ignoreRest ∧
      c'.delim = c.delim ∧ ((∀ a ∈ c.args, Ign a) → ∀ a ∈ c'.args, Ign a) := by
  cases s with
  | one d =>
    simp only [declare] at h
    split at h
    · cases h
    · rename_i c1 a h1
      split at h
      · cases h
      · rename_i c2 h2
        cases h
        obtain ⟨f1, rfl⟩ := newArg_ok h1
        obtain ⟨g1, g2, g3, g4⟩ := add_ok h2
        subst f1
        refine ⟨?_, g2, g3, ?_⟩
        · rw [g1]
          simp [OptionalUnlabeled, declsOf, optDecl_iff]
        · intro ha b hb
          rcases g4 b hb with rfl | hb
          · exact .of_not (by simp [construct])
          · exact ha b hb
  | xor ds =>
    simp only [declare] at h
    split at h
    · cases h
    · rename_i c1 as h1
      split at h
      · cases h
      · rename_i c2 h2
        cases h
        obtain ⟨f1, f2⟩ := newArgs_ok h1
        obtain ⟨g1, g2, g3, g4⟩ := addAll_ok h2
        subst f1
        refine ⟨?_, g2, g3, ?_⟩
        · rw [g1]
          simp [OptionalUnlabeled, declsOf, optDecl_iff]
        · intro ha b hb
          rcases g4 b hb with ⟨a, hm, e⟩ | hb
          · exact .of_not (by rw [e, f2 a hm]; simp)
          · exact ha b hb

theorem new_ign (d : Char) (hv : Bool) : ∀ a ∈ (new d hv : T V).args, Ign a := by
  intro a ha
  unfold new at ha
  cases hv
  · simp only [Bool.false_eq_true, if_false, List.mem_singleton] at ha
    subst ha
    exact fun _ => ⟨rfl, rfl, rfl, false, rfl⟩
  · simp only [if_true, List.mem_cons, List.not_mem_nil, or_false] at ha
    rcases ha with rfl | rfl | rfl
    · exact fun _ => ⟨rfl, rfl, rfl, false, rfl⟩
    · exact .of_not (by simp [builtin])
    · exact .of_not (by simp [builtin])

/-! ## Programs -/

theorem run_snoc (p : Proc V) : ∀ (h : List (Op V)) (o : Op V), run p (h ++ [o]) =
    match run p h with
    | .error e => .error e
    | .ok q => step q o := by
  intro h
  induction h generalizing p with
  | nil =>
    intro o
    simp only [List.nil_append, run]
    cases step p o <;> rfl
  | cons x xs ih =>
    intro o
    simp only [List.cons_append, run]
    cases step p x with
    | error e => rfl
    | ok q => exact ih q o

theorem opsOn_snoc (i : Nat) (h : List (Op V)) (o : Op V) :
    opsOn i (h ++ [o]) = if Op.line o = i then opsOn i h ++ [o] else opsOn i h := by
  simp only [opsOn, List.filter_append]
  by_cases e : Op.line o = i <;> simp [e]

theorem lastDelim_snoc (h : List (Op V)) (o : Op V) :
    lastDelim (h ++ [o]) = match o with
      | .make _ d _ => some d
      | _ => lastDelim h := by
  cases o <;> simp [lastDelim, List.filterMap_append]

theorem apart_before {h : List (Op V)} {o : Op V} (ha : Apart (h ++ [o])) : Apart h := by
  intro b x a e
  exact ha b x (a ++ [o]) (by rw [e]; simp)

/-- A process with several command lines `p`, and for each of them the process `q i` that has no other. -/
structure Sim (h : List (Op V)) (p : Proc V) (q : Nat → Proc V) : Prop where
  lines : ∀ i, (q i).lines i = p.lines i
  delim : p.delim = (lastDelim h).getD ' '
  delims : ∀ i, (q i).delim = (lastDelim (opsOn i h)).getD ' '
  ign : ∀ i, (q i).ignoreRest = true → p.ignoreRest = true ∧ ∃ argv, Op.parse i argv ∈ h ∧ ∃ t ∈ argv, MayIgnore t
  igns : p.ignoreRest = true → ∃ j, (q j).ignoreRest = true
  opt : ∀ i, (q i).optionalSeen = true → p.optionalSeen = true ∧ ∃ s, Op.declare i s ∈ h ∧ OptionalUnlabeled s
  opts : p.optionalSeen = true → ∃ j, (q j).optionalSeen = true
  good : ∀ i l, p.lines i = some l → ∀ a ∈ l.args, Ign a

theorem sim (h : List (Op V)) (ha : Apart h) :
    match run fresh h with
    | .error e => ∃ i, run fresh (opsOn i h) = .error e
    | .ok p => ∃ q, (∀ i, run fresh (opsOn i h) = .ok (q i)) ∧ Sim h p q := by
  induction h using List.reverseRecOn with
  | nil =>
    exact ⟨fun _ => fresh, fun _ => rfl, ⟨fun _ => rfl, rfl, fun _ => rfl, by simp [fresh], by simp [fresh],
      by simp [fresh], by simp [fresh], by simp [fresh]⟩⟩
  | append_singleton h o ih =>
    have ih := ih (apart_before ha)
    rw [run_snoc]
    cases e : run fresh h with
    | error e' =>
      rw [e] at ih
      obtain ⟨i, hi⟩ := ih
      refine ⟨i, ?_⟩
      rw [opsOn_snoc]
      split
      · rw [run_snoc, hi]
      · exact hi
    | ok p =>
      rw [e] at ih
      obtain ⟨q, hq, S⟩ := ih
      have hap := ha h o [] rfl
      -- the processes of the other command lines do not move
      have other : ∀ {q' : Proc V} {i : Nat}, Op.line o = i → step (q i) o = .ok q' →
          ∀ j, run fresh (opsOn j (h ++ [o])) = .ok (Function.update q i q' j) := by
        intro q' i hi hs j
        rw [opsOn_snoc]
        by_cases hj : j = i
        · subst hj
          rw [if_pos hi, run_snoc, hq, Function.update_self]
          exact hs
        · rw [if_neg (by rw [hi]; exact fun e => hj e.symm), Function.update_of_ne hj]
          exact hq j
      have stays : ∀ {i : Nat}, Op.line o = i → step (q i) o = .ok (q i) →
          ∀ j, run fresh (opsOn j (h ++ [o])) = .ok (q j) := by
        intro i hi hs j
        have := other hi hs j
        rwa [Function.update_eq_self] at this
      have fails : ∀ {i : Nat} {e : End}, Op.line o = i → step (q i) o = .error e →
          ∃ i, run fresh (opsOn i (h ++ [o])) = .error e := by
        intro i e hi hs
        refine ⟨i, ?_⟩
        rw [opsOn_snoc, if_pos hi, run_snoc, hq]
        exact hs
      have delims : ∀ i, (match o with | .make _ _ _ => False | _ => True) →
          lastDelim (h ++ [o]) = lastDelim h ∧ lastDelim (opsOn i (h ++ [o])) = lastDelim (opsOn i h) := by
        intro i ho
        rw [opsOn_snoc]
        cases o with
        | make => cases ho
        | declare j s => refine ⟨by rw [lastDelim_snoc], ?_⟩; split <;> simp [lastDelim_snoc]
        | parse j s => refine ⟨by rw [lastDelim_snoc], ?_⟩; split <;> simp [lastDelim_snoc]
      cases o with
      | make i d hv =>
        simp only [step]
        refine ⟨_, other (i := i) rfl rfl, ?_⟩
        constructor
        · intro j
          by_cases hj : j = i
          · subst hj; simp
          · simp only [Function.update_of_ne hj]; exact S.lines j
        · rw [lastDelim_snoc]; rfl
        · intro j
          rw [opsOn_snoc]
          by_cases hj : j = i
          · subst hj; simp [Op.line, lastDelim_snoc]
          · rw [Function.update_of_ne hj, if_neg (by simpa [Op.line] using fun e => hj e.symm)]; exact S.delims j
        · intro j hj
          have : (q j).ignoreRest = true := by
            by_cases e : j = i
            · subst e; simpa using hj
            · rwa [Function.update_of_ne e] at hj
          obtain ⟨h1, argv, h2, h3⟩ := S.ign j this
          exact ⟨h1, argv, by simp [h2], h3⟩
        · intro hp
          obtain ⟨j, hj⟩ := S.igns hp
          refine ⟨j, ?_⟩
          by_cases e : j = i
          · subst e; simpa using hj
          · rwa [Function.update_of_ne e]
        · intro j hj
          have : (q j).optionalSeen = true := by
            by_cases e : j = i
            · subst e; simpa using hj
            · rwa [Function.update_of_ne e] at hj
          obtain ⟨h1, s, h2, h3⟩ := S.opt j this
          exact ⟨h1, s, by simp [h2], h3⟩
        · intro hp
          obtain ⟨j, hj⟩ := S.opts hp
          refine ⟨j, ?_⟩
          by_cases e : j = i
          · subst e; simpa using hj
          · rwa [Function.update_of_ne e]
        · intro j l hl
          by_cases hj : j = i
          · subst hj
            simp only [Function.update_self, Option.some.injEq] at hl
            rw [← hl]
            exact new_ign d hv
          · simp only [Function.update_of_ne hj] at hl
            exact S.good j l hl
      | declare i s =>
        have hl := S.lines i
        cases hpl : p.lines i with
        | none =>
          rw [hpl] at hl
          simp only [step, hpl]
          refine ⟨q, stays (i := i) rfl (by simp only [step, hl]), ⟨S.lines, ?_, ?_, ?_, S.igns, ?_, S.opts, S.good⟩⟩
          · rw [(delims 0 trivial).1]; exact S.delim
          · intro j; rw [(delims j trivial).2]; exact S.delims j
          · intro j hj
            obtain ⟨h1, argv, h2, h3⟩ := S.ign j hj
            exact ⟨h1, argv, by simp [h2], h3⟩
          · intro j hj
            obtain ⟨h1, argv, h2, h3⟩ := S.opt j hj
            exact ⟨h1, argv, by simp [h2], h3⟩
        | some l =>
          rw [hpl] at hl
          have hopt : Unlabeled s → (load p l).optionalSeen = (load (q i) l).optionalSeen := by
            intro hu
            simp only [load]
            rw [Bool.eq_iff_iff]
            refine ⟨fun hp => ?_, fun hp => (S.opt i hp).1⟩
            obtain ⟨j, hj⟩ := S.opts hp
            by_cases e : j = i
            · rwa [e] at hj
            · obtain ⟨_, s', h2, h3⟩ := S.opt j hj
              exact absurd h3 (hap hu j s' e h2)
          have hs := declare_same (c₁ := load p l) (c₂ := load (q i) l) ⟨rfl, rfl, rfl⟩ s l.next hopt
          simp only [step, hpl]
          cases hd : declare (load p l) [s] l.next with
          | error e =>
            rw [hd] at hs
            exact fails (i := i) rfl (by simp only [step, hl]; rw [hs])
          | ok c =>
            rw [hd] at hs
            obtain ⟨c', hc', hlk⟩ := hs
            obtain ⟨a1, a2, a3, a4⟩ := declare_statics hd
            obtain ⟨b1, b2, b3, b4⟩ := declare_statics hc'
            refine ⟨_, other (i := i) (q' := save (q i) i c' (l.next + s.size)) rfl (by simp only [step, hl]; rw [hc']), ?_⟩
            constructor
            · intro j
              by_cases hj : j = i
              · subst hj; simp [save, hlk.args, hlk.xors, hlk.num]
              · simp only [save, Function.update_of_ne hj]; exact S.lines j
            · rw [(delims 0 trivial).1]; exact S.delim
            · intro j
              rw [(delims j trivial).2]
              by_cases hj : j = i
              · subst hj; simp only [Function.update_self, save]; exact S.delims j
              · rw [Function.update_of_ne hj]; exact S.delims j
            · intro j hj
              have hj' : (q j).ignoreRest = true := by
                by_cases e : j = i
                · subst e
                  simp only [Function.update_self, save] at hj
                  rw [b2] at hj; exact hj
                · rwa [Function.update_of_ne e] at hj
              obtain ⟨h1, argv, h2, h3⟩ := S.ign j hj'
              exact ⟨by simp only [save]; rw [a2]; exact h1, argv, by simp [h2], h3⟩
            · intro hp
              simp only [save] at hp
              rw [a2] at hp
              obtain ⟨j, hj⟩ := S.igns hp
              refine ⟨j, ?_⟩
              by_cases e : j = i
              · subst e
                simp only [Function.update_self, save]
                rw [b2]; exact hj
              · rwa [Function.update_of_ne e]
            · intro j hj
              simp only [save]
              rw [a1]
              by_cases e : j = i
              · subst e
                simp only [Function.update_self, save] at hj
                rw [b1] at hj
                rcases hj with hj | hj
                · obtain ⟨h1, s', h2, h3⟩ := S.opt j hj
                  exact ⟨.inl h1, s', by simp [h2], h3⟩
                · exact ⟨.inr hj, s, by simp, hj⟩
              · rw [Function.update_of_ne e] at hj
                obtain ⟨h1, s', h2, h3⟩ := S.opt j hj
                exact ⟨.inl h1, s', by simp [h2], h3⟩
            · intro hp
              simp only [save] at hp
              rw [a1] at hp
              rcases hp with hp | hp
              · obtain ⟨j, hj⟩ := S.opts hp
                refine ⟨j, ?_⟩
                by_cases e : j = i
                · subst e
                  simp only [Function.update_self, save]
                  rw [b1]; exact .inl hj
                · rwa [Function.update_of_ne e]
              · refine ⟨i, ?_⟩
                simp only [Function.update_self, save]
                rw [b1]; exact .inr hp
            · intro j l' hl'
              by_cases hj : j = i
              · subst hj
                simp only [save, Function.update_self, Option.some.injEq] at hl'
                rw [← hl']
                exact a4 (S.good j l hpl)
              · simp only [save, Function.update_of_ne hj] at hl'
                exact S.good j l' hl'
      | parse i argv =>
        obtain ⟨hdl, hig⟩ := hap
        have hl := S.lines i
        cases hpl : p.lines i with
        | none =>
          rw [hpl] at hl
          simp only [step, hpl]
          refine ⟨q, stays (i := i) rfl (by simp only [step, hl]), ⟨S.lines, ?_, ?_, ?_, S.igns, ?_, S.opts, S.good⟩⟩
          · rw [(delims 0 trivial).1]; exact S.delim
          · intro j; rw [(delims j trivial).2]; exact S.delims j
          · intro j hj
            obtain ⟨h1, argv, h2, h3⟩ := S.ign j hj
            exact ⟨h1, argv, by simp [h2], h3⟩
          · intro j hj
            obtain ⟨h1, argv, h2, h3⟩ := S.opt j hj
            exact ⟨h1, argv, by simp [h2], h3⟩
        | some l =>
          rw [hpl] at hl
          have hd : p.delim = (q i).delim := by rw [S.delim, S.delims, hdl]
          have hi : p.ignoreRest = (q i).ignoreRest := by
            rw [Bool.eq_iff_iff]
            refine ⟨fun hp => ?_, fun hp => (S.ign i hp).1⟩
            obtain ⟨j, hj⟩ := S.igns hp
            by_cases e : j = i
            · rwa [e] at hj
            · obtain ⟨_, argv', h2, t, h3, h4⟩ := S.ign j hj
              exact absurd h4 (hig j argv' e h2 t h3)
          have hs := parse_same (c₁ := load p l) (c₂ := load (q i) l) rfl rfl rfl hd hi argv
          simp only [step, hpl]
          cases hp : parse (load p l) argv with
          | error e =>
            rw [hp] at hs
            exact fails (i := i) rfl (by simp only [step, hl]; rw [hs])
          | ok c =>
            rw [hp] at hs
            obtain ⟨c', hc', k1, k2, k3, k4⟩ := hs
            obtain ⟨a1, a2, a3, a4, _, _⟩ := parse_fine (c := load p l) (S.good i l hpl) hp
            obtain ⟨b1, b2, b3, b4, _, _⟩ := parse_fine (c := load (q i) l) (S.good i l hpl) hc'
            refine ⟨_, other (i := i) (q' := save (q i) i c' l.next) rfl (by simp only [step, hl]; rw [hc']), ?_⟩
            constructor
            · intro j
              by_cases hj : j = i
              · subst hj; simp [save, k1, k2, k3]
              · simp only [save, Function.update_of_ne hj]; exact S.lines j
            · rw [(delims 0 trivial).1]; exact S.delim
            · intro j
              rw [(delims j trivial).2]
              by_cases hj : j = i
              · subst hj; simp only [Function.update_self, save]; exact S.delims j
              · rw [Function.update_of_ne hj]; exact S.delims j
            · intro j hj
              by_cases e : j = i
              · subst e
                simp only [Function.update_self, save] at hj
                refine ⟨by simp only [save]; rw [← k4]; exact hj, ?_⟩
                rcases b3 hj with hj | hj
                · obtain ⟨h1, argv, h2, h3⟩ := S.ign j hj
                  exact ⟨argv, by simp [h2], h3⟩
                · exact ⟨argv, by simp, hj⟩
              · rw [Function.update_of_ne e] at hj
                obtain ⟨h1, argv, h2, h3⟩ := S.ign j hj
                exact ⟨a2 h1, argv, by simp [h2], h3⟩
            · intro hp'
              simp only [save] at hp'
              refine ⟨i, ?_⟩
              simp only [Function.update_self, save]
              rw [k4]; exact hp'
            · intro j hj
              have hj' : (q j).optionalSeen = true := by
                by_cases e : j = i
                · subst e
                  simp only [Function.update_self, save] at hj
                  rw [b4] at hj; exact hj
                · rwa [Function.update_of_ne e] at hj
              obtain ⟨h1, s, h2, h3⟩ := S.opt j hj'
              exact ⟨by simp only [save]; rw [a4]; exact h1, s, by simp [h2], h3⟩
            · intro hp'
              simp only [save] at hp'
              rw [a4] at hp'
              obtain ⟨j, hj⟩ := S.opts hp'
              refine ⟨j, ?_⟩
              by_cases e : j = i
              · subst e
                simp only [Function.update_self, save]
                rw [b4]; exact hj
              · rwa [Function.update_of_ne e]
            · intro j l' hl'
              by_cases hj : j = i
              · subst hj
                simp only [save, Function.update_self, Option.some.injEq] at hl'
                rw [← hl']
                exact a1
              · simp only [save, Function.update_of_ne hj] at hl'
                exact S.good j l' hl'

end Ecl.CmdLine.Process
