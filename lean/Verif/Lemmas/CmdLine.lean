import Verif.Model.CmdLine

/-! Helper lemmas about the model of `ecl_command_line`. -/
set_option autoImplicit false
set_option linter.unusedSimpArgs false
set_option linter.unusedVariables false

namespace Ecl.CmdLine

variable {V : Type _}

inductive Kind where
  | value | multi | switch | multiSwitch
  deriving DecidableEq, Repr

def kind : Slot V → Kind
  | .value _ => .value
  | .multi _ => .multi
  | .switch _ => .switch
  | .multiSwitch _ => .multiSwitch

/-- The part of an argument that parsing never changes. -/
structure Key (V : Type _) where
  id : Nat
  flag : Str
  name : Str
  required : Bool
  visitor : Visitor
  unlabeled : Bool
  ext : Str → Ext V
  constraint : Option (V → Bool)
  kind : Kind

def key (a : Arg V) : Key V :=
  ⟨a.id, a.flag, a.name, a.required, a.visitor, a.unlabeled, a.ext, a.constraint, kind a.slot⟩

theorem extractValue_spec {a a' : Arg V} {s : Str} (h : extractValue a s = .ok a') :
    key a' = key a ∧ a'.alreadySet = a.alreadySet ∧ a'.xorSet = a.xorSet ∧
      a'.allowMore = a.allowMore ∧
      (∀ vs, a.slot = .multi vs → ∃ v, a'.slot = .multi (vs ++ [v])) := by
  unfold extractValue at h
  split at h
  · cases h
  · cases h
  · split at h
    · rename_i h1
      split at h
      · cases h; simp [key, kind, h1]
      · cases h
    · rename_i h1
      split at h
      · cases h; simp [key, kind, h1]
      · cases h
    · rename_i h1 h2
      cases h
      refine ⟨rfl, rfl, rfl, rfl, ?_⟩
      intro vs hvs; exact absurd hvs (h2 vs)
  · split at h
    · rename_i h1
      split at h
      · cases h; simp [key, kind, h1]
      · cases h
    · cases h
    · rename_i h1 h2
      cases h
      refine ⟨rfl, rfl, rfl, rfl, ?_⟩
      intro vs hvs; exact absurd hvs (h2 vs)

theorem takeValue_spec {d : Char} {a a' : Arg V} {value : Str} {next : Option Str} {skip : Bool}
    (h : takeValue d a value next = .ok (a', skip)) :
    key a' = key a ∧ a'.alreadySet = a.alreadySet ∧ a'.xorSet = a.xorSet ∧
      a'.allowMore = a.allowMore ∧
      (∀ vs, a.slot = .multi vs → ∃ v, a'.slot = .multi (vs ++ [v])) := by
  unfold takeValue at h
  split at h
  · cases h
  · split at h
    · split at h
      · rename_i s
        cases h1 : extractValue a s with
        | error e => rw [h1] at h; cases h
        | ok b =>
          rw [h1] at h
          have h2 : (b, true) = (a', skip) := by injection h
          have h3 : b = a' := congrArg Prod.fst h2
          exact h3 ▸ extractValue_spec h1
      · cases h
    · cases h1 : extractValue a value with
      | error e => rw [h1] at h; cases h
      | ok b =>
        rw [h1] at h
        have h2 : (b, false) = (a', skip) := by injection h
        have h3 : b = a' := congrArg Prod.fst h2
        exact h3 ▸ extractValue_spec h1

/-- What one `processArg` can do to its argument. -/
inductive Did (d : Char) (tok : Str) (a : Arg V) : Step V → Prop
  | miss (ign : Bool) (tok' : Str) : Did d tok a ⟨false, a, tok', false, ign⟩
  | value (a' : Arg V) (tok' : Str) (skip ign : Bool)
      (hk : kind a.slot = .value) (hs : a.alreadySet = false)
      (hm : a.unlabeled = false → argMatches a (trimFlag d tok).1 = true)
      (hkey : key a' = key a) (h1 : a'.alreadySet = true) (h2 : a'.xorSet = a.xorSet)
      (h3 : a'.allowMore = a.allowMore) : Did d tok a ⟨true, a', tok', skip, ign⟩
  | multi (a' : Arg V) (tok' : Str) (skip ign : Bool) (vs : List V) (v : V)
      (hk : a.slot = .multi vs) (hk' : a'.slot = .multi (vs ++ [v]))
      (hm : a.unlabeled = false → argMatches a (trimFlag d tok).1 = true)
      (hkey : key a' = key a) (h1 : a'.alreadySet = true) (h2 : a'.xorSet = a.xorSet)
      (h3 : a'.allowMore = a.allowMore) : Did d tok a ⟨true, a', tok', skip, ign⟩
  | hit (a' : Arg V) (tok' : Str) (ign : Bool)
      (hk : kind a.slot = .switch) (hs : a.alreadySet = false) (hu : a.unlabeled = false)
      (hkey : key a' = key a) (h1 : a'.alreadySet = true) (h2 : a'.xorSet = a.xorSet)
      (h3 : a'.allowMore = a.allowMore) : Did d tok a ⟨true, a', tok', false, ign⟩
  | combined (a' : Arg V) (tok' : Str) (ign : Bool)
      (hk : kind a.slot = .switch) (hu : a.unlabeled = false)
      (hc : (combinedMatch a tok).isSome = true) (hn : argMatches a tok = false)
      (hkey : key a' = key a) (h1 : a'.alreadySet = true) (h2 : a'.xorSet = a.xorSet)
      (h3 : a'.allowMore = a.allowMore) : Did d tok a ⟨false, a', tok', false, ign⟩
  | count (a' : Arg V) (tok' : Str) (m ign : Bool)
      (hk : kind a.slot = .multiSwitch) (hu : a.unlabeled = false)
      (hkey : key a' = key a) (h1 : a'.alreadySet = true) (h2 : a'.xorSet = a.xorSet)
      (h3 : a'.allowMore = a.allowMore) : Did d tok a ⟨m, a', tok', false, ign⟩

theorem key_toggle (a : Arg V) : key (toggle a) = key a := by
  unfold toggle key; cases h : a.slot <;> simp [kind]

theorem key_bump (a : Arg V) (k : Nat) : key (bump a k) = key a := by
  unfold bump key; cases h : a.slot <;> simp [kind]

/-- Only arguments of the classes that exist: unlabeled arguments hold values. -/
def Sane (a : Arg V) : Prop := a.unlabeled = true → kind a.slot = .value ∨ kind a.slot = .multi

theorem key_set {a : Arg V} : key { a with alreadySet := true } = key a := rfl

theorem processArg_did {d : Char} {ign : Bool} {tok : Str} {next : Option Str} {a : Arg V}
    {r : Step V} (hsane : Sane a) (h : processArg d ign tok next a = .ok r) : Did d tok a r := by
  unfold processArg at h
  split at h
  · rename_i hu
    unfold processUnlabeled at h
    split at h
    · cases h; exact .miss _ _
    · rename_i hsingle
      split at h
      · cases h; exact .miss _ _
      · split at h
        · cases h
        · rename_i b hb
          cases h
          obtain ⟨e1, e2, e3, e4, e5⟩ := extractValue_spec hb
          rcases hsane hu with hk | hk
          · refine .value _ _ _ _ hk ?_ (by simp [hu]) ?_ rfl e3 e4
            · cases hs : a.slot <;> rw [hs] at hk <;> simp [kind] at hk
              cases h2 : a.alreadySet
              · rfl
              · simp [isMulti, hs, h2] at hsingle
            · simpa [key] using e1
          · cases hs : a.slot <;> rw [hs] at hk <;> simp [kind] at hk
            rename_i vs
            obtain ⟨v, hv⟩ := e5 vs hs
            exact .multi _ _ _ _ vs v hs hv (by simp [hu]) (by simpa [key] using e1) rfl e3 e4
  · rename_i hu
    have hu : a.unlabeled = false := by simpa using hu
    split at h
    · rename_i v hs
      unfold processValue at h
      split at h
      · cases h; exact .miss _ _
      · split at h
        · cases h; exact .miss _ _
        · split at h
          · rename_i hm
            split at h
            · cases h
            · rename_i hset
              split at h
              · cases h
              · rename_i b skip hb
                obtain ⟨e1, e2, e3, e4, e5⟩ := takeValue_spec hb
                split at h
                · cases h
                · cases h
                  exact .value _ _ _ _ (by rw [hs]; rfl) (by simpa using hset) (fun _ => hm)
                    (by simpa [key] using e1) rfl e3 e4
          · cases h; exact .miss _ _
    · rename_i vs hs
      unfold processMulti at h
      split at h
      · cases h; exact .miss _ _
      · split at h
        · cases h; exact .miss _ _
        · split at h
          · rename_i hm
            split at h
            · cases h
            · rename_i b skip hb
              obtain ⟨e1, e2, e3, e4, e5⟩ := takeValue_spec hb
              split at h
              · cases h
              · cases h
                obtain ⟨v, hv⟩ := e5 vs hs
                exact .multi _ _ _ _ vs v hs hv (fun _ => hm) (by simpa [key] using e1) rfl e3 e4
          · cases h; exact .miss _ _
    · rename_i b hs
      unfold processSwitch at h
      split at h
      · cases h; exact .miss _ _
      · split at h
        · split at h
          · cases h
          · rename_i hset
            split at h
            · cases h
            · cases h
              exact .hit _ _ _ (by rw [hs]; rfl) (by simpa using hset) hu (key_toggle a) rfl rfl rfl
        · rename_i hnm
          split at h
          · cases h; exact .miss _ _
          · rename_i tok1 hc
            split at h
            · split at h
              · cases h
              · rename_i hset
                split at h
                · cases h
                · cases h
                  exact .hit _ _ _ (by rw [hs]; rfl) (by simpa using hset) hu (key_toggle a)
                    rfl rfl rfl
            · split at h
              · cases h
              · split at h
                · cases h
                · cases h
                  exact .combined _ _ _ (by rw [hs]; rfl) hu (by rw [hc]; rfl) (by simpa using hnm)
                    (key_toggle a) rfl rfl rfl
    · rename_i n hs
      unfold processMultiSwitch at h
      split at h
      · cases h; exact .miss _ _
      · split at h
        · split at h
          · cases h
          · cases h
            exact .count _ _ _ _ (by rw [hs]; rfl) hu (key_bump a 1) rfl rfl rfl
        · split at h
          · cases h; exact .miss _ _
          · split at h
            · cases h
            · split at h
              · cases h
              · cases h
                exact .count _ _ _ _ (by rw [hs]; rfl) hu (key_bump a _) rfl rfl rfl

theorem Did.key_eq {d : Char} {tok : Str} {a : Arg V} {r : Step V} (h : Did d tok a r) :
    key r.arg = key a := by
  cases h <;> first | rfl | assumption

/-! ## Blanked texts -/

theorem blankFirst_mem {f : Char} : ∀ {s s' : Str}, blankFirst f s = some s' → blankChar ∈ s'
  | [], s', h => by simp [blankFirst] at h
  | c :: cs, s', h => by
    unfold blankFirst at h
    split at h
    · cases h; simp
    · cases h1 : blankFirst f cs with
      | none => rw [h1] at h; cases h
      | some t =>
        rw [h1] at h
        have h2 : c :: t = s' := by simpa using h
        subst h2
        exact List.mem_cons_of_mem _ (blankFirst_mem h1)

theorem combinedMatch_blanks {a : Arg V} {s s' : Str} (h : combinedMatch a s = some s') :
    hasBlanks s' = true := by
  unfold combinedMatch at h
  split at h
  · cases h
  · rename_i c cs
    split at h
    · cases h
    · split at h
      · cases h
      · cases h1 : blankFirst (a.flag.headD '\x00') cs with
        | none => rw [h1] at h; cases h
        | some t =>
          rw [h1] at h
          have h2 : c :: t = s' := by simpa using h
          subst h2
          simpa [hasBlanks] using blankFirst_mem h1

theorem blankAll_blanks {a : Arg V} : ∀ {n : Nat} {s : Str} {r : Str × Nat},
    hasBlanks s = true → blankAll a n s = some r → hasBlanks r.1 = true
  | 0, s, r, hs, h => by
    unfold blankAll at h
    split at h
    · cases h; exact hs
    · cases h
  | n + 1, s, r, hs, h => by
    unfold blankAll at h
    split at h
    · cases h; exact hs
    · rename_i s' hc
      cases h1 : blankAll a n s' with
      | none => rw [h1] at h; cases h
      | some q =>
        rw [h1] at h
        have h2 : (q.1, q.2 + 1) = r := by simpa using h
        subst h2
        have := blankAll_blanks (combinedMatch_blanks hc) h1
        exact this

/-- If an argument does not match, the text is unchanged or contains blanks. -/
theorem processArg_tok {d : Char} {ign : Bool} {tok : Str} {next : Option Str} {a : Arg V}
    {r : Step V} (h : processArg d ign tok next a = .ok r) (hm : r.matched = false) :
    r.tok = tok ∨ hasBlanks r.tok = true := by
  unfold processArg at h
  split at h
  · unfold processUnlabeled at h
    split at h
    · cases h; exact .inl rfl
    · split at h
      · cases h; exact .inl rfl
      · split at h
        · cases h
        · cases h; cases hm
  · split at h
    · unfold processValue at h
      split at h
      · cases h; exact .inl rfl
      · split at h
        · cases h; exact .inl rfl
        · split at h
          · split at h
            · cases h
            · split at h
              · cases h
              · split at h
                · cases h
                · cases h; cases hm
          · cases h; exact .inl rfl
    · unfold processMulti at h
      split at h
      · cases h; exact .inl rfl
      · split at h
        · cases h; exact .inl rfl
        · split at h
          · split at h
            · cases h
            · split at h
              · cases h
              · cases h; cases hm
          · cases h; exact .inl rfl
    · unfold processSwitch at h
      split at h
      · cases h; exact .inl rfl
      · split at h
        · split at h
          · cases h
          · split at h
            · cases h
            · cases h; cases hm
        · split at h
          · cases h; exact .inl rfl
          · rename_i tok1 hc
            split at h
            · split at h
              · cases h
              · split at h
                · cases h
                · cases h; cases hm
            · split at h
              · cases h
              · split at h
                · cases h
                · cases h; exact .inr (combinedMatch_blanks hc)
    · unfold processMultiSwitch at h
      split at h
      · cases h; exact .inl rfl
      · split at h
        · split at h
          · cases h
          · cases h; cases hm
        · split at h
          · cases h; exact .inl rfl
          · rename_i tok1 hc
            split at h
            · cases h
            · rename_i tok2 k hb
              split at h
              · cases h
              · cases h; exact .inr (blankAll_blanks (combinedMatch_blanks hc) hb)

/-- Labeled value arguments only match texts without blanks. -/
theorem processArg_noblanks {d : Char} {ign : Bool} {tok : Str} {next : Option Str} {a : Arg V}
    {r : Step V} (h : processArg d ign tok next a = .ok r) (hm : r.matched = true)
    (hk : kind a.slot = .value ∨ kind a.slot = .multi) : hasBlanks tok = false := by
  unfold processArg at h
  split at h
  · unfold processUnlabeled at h
    split at h
    · cases h; cases hm
    · split at h
      · cases h; cases hm
      · simpa using ‹¬ hasBlanks tok = true›
  · split at h
    · unfold processValue at h
      split at h
      · cases h; cases hm
      · split at h
        · cases h; cases hm
        · simpa using ‹¬ hasBlanks tok = true›
    · unfold processMulti at h
      split at h
      · cases h; cases hm
      · split at h
        · cases h; cases hm
        · simpa using ‹¬ hasBlanks tok = true›
    · rename_i hs; simp [hs, kind] at hk
    · rename_i hs; simp [hs, kind] at hk

/-- A text that cannot be a combination of several switches: it does not start with a single `-`,
or it has at most one character after it. -/
def Simple (t : Str) : Prop :=
  '\x00' ∉ t ∧ ∀ cs, t = '-' :: cs → cs.head? ≠ some '-' → cs.length ≤ 1

theorem simple_combined {a : Arg V} {t t' : Str} (ht : Simple t) (hf : a.flag.length ≤ 1)
    (h : combinedMatch a t = some t') : argMatches a t = true := by
  unfold combinedMatch at h
  split at h
  · cases h
  · rename_i c cs
    split at h
    · cases h
    · rename_i hc
      have hc : c = '-' := by simpa [flagStart] using hc
      subst hc
      split at h
      · cases h
      · rename_i hn
        have hh : cs.head? ≠ some '-' := by
          intro hh
          cases cs with
          | nil => simp at hh
          | cons x xs =>
            simp at hh
            subst hh
            simp [nameStartString] at hn
        have hl := ht.2 cs rfl hh
        match cs, hl with
        | [], _ => simp [blankFirst] at h
        | [x], _ =>
          have hx : x = a.flag.headD '\x00' := by
            by_cases hx : x = a.flag.headD '\x00'
            · exact hx
            · simp only [blankFirst, if_neg hx] at h
              simp at h
          match hfl : a.flag, hf with
          | [], _ =>
            rw [hfl] at hx
            have : x = '\x00' := by simpa using hx
            subst this
            exact absurd ht.1 (by simp)
          | [y], _ =>
            rw [hfl] at hx
            have : x = y := by simpa using hx
            subst this
            simp [argMatches, hfl, flagStartString]

/-! ## The inner loop -/

/-- An argument that did not match. -/
def Pass (sw : Bool) (a a' : Arg V) : Prop :=
  a' = a ∨ (((kind a.slot = .switch ∧ sw = false) ∨ kind a.slot = .multiSwitch) ∧ key a' = key a ∧
    a'.alreadySet = true ∧ a'.xorSet = a.xorSet ∧ a'.allowMore = a.allowMore)

/-- The argument that matched. -/
def Hit (d : Char) (tok : Str) (a a' : Arg V) : Prop :=
  key a' = key a ∧ a'.alreadySet = true ∧ a'.xorSet = a.xorSet ∧ a'.allowMore = a.allowMore ∧
    ((kind a.slot = .value ∧ a.alreadySet = false ∧
        (a.unlabeled = false → argMatches a (trimFlag d tok).1 = true)) ∨
      (∃ vs v, a.slot = .multi vs ∧ a'.slot = .multi (vs ++ [v]) ∧
        (a.unlabeled = false → argMatches a (trimFlag d tok).1 = true)) ∨
      (kind a.slot = .switch ∧ a.alreadySet = false) ∨ kind a.slot = .multiSwitch)

theorem Pass.key {sw : Bool} {a a' : Arg V} (h : Pass sw a a') : key a' = key a := by
  rcases h with rfl | h
  · rfl
  · exact h.2.1

theorem scan_spec {d : Char} {next : Option Str} (sw : Bool) (tok0 : Str) (hsimple : sw = true → Simple tok0) :
    ∀ (args : List (Arg V)) (ign : Bool) (tok : Str) (q : Scan V),
    (tok = tok0 ∨ hasBlanks tok = true ∧ sw = false) →
    args.Pairwise (fun a b => a.id ≠ b.id) → (∀ a ∈ args, Sane a ∧ a.flag.length ≤ 1) →
    scan d ign tok next args = .ok q →
    ∃ f : Arg V → Arg V, q.args = args.map f ∧
      ((q.hit = none ∧ ∀ a ∈ args, Pass sw a (f a)) ∨
        ∃ a ∈ args, q.hit = some a.id ∧ Hit d tok0 a (f a) ∧
          ∀ b ∈ args, b.id ≠ a.id → Pass sw b (f b))
  | [], ign, tok, q, htok, hid, hs, h => by
    cases h
    exact ⟨fun a => a, rfl, .inl ⟨rfl, by simp⟩⟩
  | a :: as, ign, tok, q, htok, hid, hs, h => by
    unfold scan at h
    split at h
    · cases h
    · rename_i r hr
      have hdid := processArg_did (hs a (by simp)).1 hr
      have hid' := List.pairwise_cons.1 hid
      split at h
      · rename_i hm
        cases h
        have hmap : as = as.map (fun x => if x.id = a.id then r.arg else x) := by
          rw [List.map_congr_left (g := fun x => x)]
          · simp
          · intro b hb
            rw [if_neg]
            exact fun e => hid'.1 b hb e.symm
        refine ⟨fun x => if x.id = a.id then r.arg else x, ?_, .inr ⟨a, by simp, rfl, ?_, ?_⟩⟩
        · rw [List.map_cons, ← hmap]; simp
        · simp only [if_true]
          have hnb : (kind a.slot = .value ∨ kind a.slot = .multi) → tok = tok0 := by
            intro hk
            rcases htok with h | h
            · exact h
            · rw [processArg_noblanks hr hm hk] at h; simp at h
          cases hdid with
          | miss => cases hm
          | value a' tok' skip ign hk hs hma hkey h1 h2 h3 =>
            rw [hnb (.inl hk)] at hma
            exact ⟨hkey, h1, h2, h3, .inl ⟨hk, hs, hma⟩⟩
          | multi a' tok' skip ign vs v hk hk' hma hkey h1 h2 h3 =>
            rw [hnb (.inr (by rw [hk]; rfl))] at hma
            exact ⟨hkey, h1, h2, h3, .inr (.inl ⟨vs, v, hk, hk', hma⟩)⟩
          | hit a' tok' ign hk hs hu hkey h1 h2 h3 =>
            exact ⟨hkey, h1, h2, h3, .inr (.inr (.inl ⟨hk, hs⟩))⟩
          | combined => cases hm
          | count a' tok' m ign hk hu hkey h1 h2 h3 =>
            exact ⟨hkey, h1, h2, h3, .inr (.inr (.inr hk))⟩
        · intro b hb hne
          simp only [if_neg hne]
          exact .inl rfl
      · rename_i hm
        have hm : r.matched = false := by simpa using hm
        split at h
        · cases h
        · rename_i q' hq'
          cases h
          have hpass : Pass sw a r.arg ∧ (r.tok = tok0 ∨ hasBlanks r.tok = true ∧ sw = false) := by
            have htok' := processArg_tok hr hm
            cases hsw : sw with
            | false =>
              refine ⟨?_, ?_⟩
              · cases hdid with
                | miss => exact .inl rfl
                | value => cases hm
                | multi => cases hm
                | hit => cases hm
                | combined a' tok' ign hk hu hc hn hkey h1 h2 h3 =>
                  exact .inr ⟨.inl ⟨hk, rfl⟩, hkey, h1, h2, h3⟩
                | count a' tok' m ign hk hu hkey h1 h2 h3 =>
                  exact .inr ⟨.inr hk, hkey, h1, h2, h3⟩
              · rw [hsw] at htok
                rcases htok' with e | e
                · rw [e]; exact htok
                · exact .inr ⟨e, rfl⟩
            | true =>
              rw [hsw] at htok
              have ht : tok = tok0 := by simpa using htok
              subst ht
              have hcm : argMatches a tok = false → combinedMatch a tok = none := by
                intro hn
                cases hc : combinedMatch a tok with
                | none => rfl
                | some t' =>
                  rw [simple_combined (hsimple hsw) (hs a (by simp)).2 hc] at hn
                  cases hn
              refine ⟨?_, ?_⟩
              · cases hdid with
                | miss => exact .inl rfl
                | value => cases hm
                | multi => cases hm
                | hit => cases hm
                | combined a' tok' ign hk hu hc hn hkey h1 h2 h3 =>
                  rw [hcm hn] at hc; cases hc
                | count a' tok' m ign hk hu hkey h1 h2 h3 =>
                  exact .inr ⟨.inr hk, hkey, h1, h2, h3⟩
              · left
                unfold processArg at hr
                split at hr
                · unfold processUnlabeled at hr
                  split at hr
                  · cases hr; rfl
                  · split at hr
                    · cases hr; rfl
                    · split at hr
                      · cases hr
                      · cases hr; cases hm
                · split at hr
                  · unfold processValue at hr
                    split at hr
                    · cases hr; rfl
                    · split at hr
                      · cases hr; rfl
                      · split at hr
                        · split at hr
                          · cases hr
                          · split at hr
                            · cases hr
                            · split at hr
                              · cases hr
                              · cases hr; cases hm
                        · cases hr; rfl
                  · unfold processMulti at hr
                    split at hr
                    · cases hr; rfl
                    · split at hr
                      · cases hr; rfl
                      · split at hr
                        · split at hr
                          · cases hr
                          · split at hr
                            · cases hr
                            · cases hr; cases hm
                        · cases hr; rfl
                  · unfold processSwitch at hr
                    split at hr
                    · cases hr; rfl
                    · split at hr
                      · split at hr
                        · cases hr
                        · split at hr
                          · cases hr
                          · cases hr; cases hm
                      · rename_i hnm
                        rw [hcm (by simpa using hnm)] at hr
                        cases hr; rfl
                  · unfold processMultiSwitch at hr
                    split at hr
                    · cases hr; rfl
                    · split at hr
                      · split at hr
                        · cases hr
                        · cases hr; cases hm
                      · rename_i hnm
                        rw [hcm (by simpa using hnm)] at hr
                        cases hr; rfl
          obtain ⟨f, hf, hq⟩ := scan_spec sw tok0 hsimple as r.ign r.tok q' hpass.2 hid'.2
            (fun b hb => hs b (List.mem_cons_of_mem _ hb)) hq'
          have hne : ∀ b ∈ as, b.id ≠ a.id := fun b hb e => hid'.1 b hb e.symm
          refine ⟨fun x => if x.id = a.id then r.arg else f x, ?_, ?_⟩
          · simp only [List.map_cons, if_true, hf]
            congr 1
            apply List.map_congr_left
            intro b hb
            rw [if_neg (hne b hb)]
          · rcases hq with ⟨h1, h2⟩ | ⟨b, hb, h1, h2, h3⟩
            · refine .inl ⟨h1, ?_⟩
              intro b hb
              rcases List.mem_cons.1 hb with rfl | hb
              · simpa using hpass.1
              · simp only [if_neg (hne b hb)]; exact h2 b hb
            · refine .inr ⟨b, List.mem_cons_of_mem _ hb, h1, ?_, ?_⟩
              · simp only [if_neg (hne b hb)]; exact h2
              · intro x hx hxb
                rcases List.mem_cons.1 hx with rfl | hx
                · simpa using hpass.1
                · simp only [if_neg (hne x hx)]; exact h3 x hx hxb

end Ecl.CmdLine
