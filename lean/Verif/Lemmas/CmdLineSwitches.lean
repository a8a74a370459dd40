import Verif.Lemmas.CmdLineItems

/-! Helper lemmas: switches given together and one by one. -/
set_option autoImplicit false
set_option linter.unusedSimpArgs false
set_option linter.unusedVariables false

namespace Ecl.CmdLine
open Spec

variable {V : Type _}

/-- A `SwitchArg` or a `MultiSwitchArg`. -/
def SwitchLike (a : Arg V) : Prop := kind a.slot = .switch ∨ kind a.slot = .multiSwitch

/-- What giving the switches `cs` does to an argument. -/
def eff (cs : Str) (a : Arg V) : Arg V :=
  match a.flag with
  | [f] =>
    if cs.count f = 0 then a
    else match a.slot with
      | .switch _ => toggle a
      | .multiSwitch _ => bump a (cs.count f)
      | _ => a
  | _ => a

/-- When giving them is allowed. -/
def effOk (cs : Str) (a : Arg V) : Prop :=
  ∀ f, a.flag = [f] → kind a.slot = .switch → cs.count f = 0 ∨
    (cs.count f = 1 ∧ a.alreadySet = false)

theorem eff_congr {w w1 : Str} {b : Arg V}
    (h : ∀ g, b.flag = [g] → SwitchLike b → w1.count g = w.count g) :
    eff w1 b = eff w b ∧ (effOk w1 b ↔ effOk w b) := by
  constructor
  · unfold eff
    split
    · rename_i f hf
      cases hs : b.slot with
      | value v => simp
      | multi v => simp
      | switch v => simp [h f hf (.inl (by rw [hs]; rfl))]
      | multiSwitch v => simp [h f hf (.inr (by rw [hs]; rfl))]
    · rfl
  · constructor
    · intro h1 f hf hk
      have := h1 f hf hk
      rw [h f hf (.inl hk)] at this
      exact this
    · intro h1 f hf hk
      have := h1 f hf hk
      rw [h f hf (.inl hk)]
      exact this

theorem eff_zero {w : Str} {b : Arg V} (h : ∀ g, b.flag = [g] → SwitchLike b → w.count g = 0) :
    eff w b = b ∧ effOk w b := by
  constructor
  · unfold eff
    split
    · rename_i f hf
      cases hs : b.slot with
      | value v => simp
      | multi v => simp
      | switch v => simp [h f hf (.inl (by rw [hs]; rfl))]
      | multiSwitch v => simp [h f hf (.inr (by rw [hs]; rfl))]
    · rfl
  · intro f hf hk
    exact .inl (h f hf (.inl hk))

theorem key_eff (cs : Str) (a : Arg V) : key (eff cs a) = key a := by
  unfold eff
  split
  · split
    · rfl
    · cases hs : a.slot <;> simp [toggle, bump, key, kind, hs]
  · rfl

/-- Replace a character by the blank. -/
def bl (f x : Char) : Char := if x = f then '*' else x

theorem count_bl {f g : Char} (h1 : g ≠ f) (h2 : g ≠ '*') : ∀ w : Str,
    (w.map (bl f)).count g = w.count g
  | [] => rfl
  | x :: xs => by
    rw [List.map_cons, List.count_cons, List.count_cons, count_bl h1 h2 xs]
    unfold bl
    by_cases e : x = f
    · rw [if_pos e, e]
      simp [h1.symm, h2.symm]
    · rw [if_neg e]

theorem blankFirst_some {f : Char} (hf : f ≠ '*') : ∀ {w : Str}, f ∈ w →
    ∃ w', blankFirst f w = some w' ∧ w'.map (bl f) = w.map (bl f) ∧ w'.count f + 1 = w.count f ∧
      w'.length = w.length ∧ ∀ x ∈ w', x = '*' ∨ x ∈ w
  | x :: xs, h => by
    by_cases e : x = f
    · refine ⟨'*' :: xs, ?_, ?_, ?_, rfl, ?_⟩
      · simp [blankFirst, e, blankChar]
      · simp [bl, e]
      · rw [List.count_cons, List.count_cons, e]
        simp [hf.symm]
      · intro y hy
        rcases List.mem_cons.1 hy with e | hy
        · exact .inl e
        · exact .inr (List.mem_cons_of_mem _ hy)
    · have hm : f ∈ xs := by
        rcases List.mem_cons.1 h with e' | h
        · exact absurd e'.symm e
        · exact h
      obtain ⟨w', h1, h2, h3, h4, h5⟩ := blankFirst_some hf hm
      refine ⟨x :: w', ?_, ?_, ?_, ?_, ?_⟩
      · simp [blankFirst, e, h1]
      · simp [h2]
      · rw [List.count_cons, List.count_cons]
        simp [e]
        exact h3
      · simp [h4]
      · intro y hy
        rcases List.mem_cons.1 hy with e | hy
        · exact .inr (by simp [e])
        · rcases h5 y hy with h | h
          · exact .inl h
          · exact .inr (List.mem_cons_of_mem _ h)

theorem combinedMatch_dash {a : Arg V} {f : Char} (hflag : a.flag = [f]) {w : Str}
    (hd : '-' ∉ w) : combinedMatch a ('-' :: w) = (blankFirst f w).map ('-' :: ·) := by
  unfold combinedMatch
  simp only [flagStart, ne_eq, not_true, if_false]
  rw [if_neg, hflag]
  · rfl
  · cases w with
    | nil => simp [nameStartString]
    | cons x xs =>
      simp [nameStartString]
      intro e; apply hd; simp [e]

theorem map_bl_id {f : Char} {w : Str} (h : f ∉ w) : w.map (bl f) = w := by
  induction w with
  | nil => rfl
  | cons x xs ih =>
    have h1 : x ≠ f := fun e => h (by simp [e])
    rw [List.map_cons, ih (fun e => h (List.mem_cons_of_mem _ e))]
    simp [bl, h1]

theorem blankAll_all {a : Arg V} {f : Char} (hflag : a.flag = [f]) (hf : f ≠ '*') :
    ∀ (fuel : Nat) {w : Str}, '-' ∉ w → w.count f ≤ fuel →
      blankAll a fuel ('-' :: w) = some ('-' :: w.map (bl f), w.count f)
  | 0, w, hd, hc => by
    have h0 : f ∉ w := List.count_eq_zero.1 (by omega)
    unfold blankAll
    rw [combinedMatch_dash hflag hd, blankFirst_none h0, map_bl_id h0, List.count_eq_zero.2 h0]
    rfl
  | fuel + 1, w, hd, hc => by
    unfold blankAll
    rw [combinedMatch_dash hflag hd]
    by_cases hm : f ∈ w
    · obtain ⟨w', h1, h2, h3, h4, h5⟩ := blankFirst_some hf hm
      have hd' : '-' ∉ w' := by
        intro e
        rcases h5 _ e with e | e
        · exact absurd e (by decide)
        · exact hd e
      rw [h1]
      simp only [Option.map_some]
      rw [blankAll_all hflag hf fuel hd' (by omega), h2]
      simp only [Option.map_some]
      rw [h3]
    · rw [blankFirst_none hm, map_bl_id hm, List.count_eq_zero.2 hm]
      rfl

theorem argMatches_long {a : Arg V} (hl : a.flag.length ≤ 1) {w : Str} (hd : '-' ∉ w)
    (hw : 2 ≤ w.length) : argMatches a ('-' :: w) = false := by
  apply argMatches_false
  · intro e
    have := congrArg List.length e
    simp at this
    omega
  · intro e
    apply hd
    rw [(List.cons.inj e).2]
    simp

/-- A switch that occurs in a combination. -/
theorem processArg_comb {d : Char} {next : Option Str} {a : Arg V} {f : Char}
    (hu : a.unlabeled = false) (hk : SwitchLike a) (hflag : a.flag = [f]) (hf : f ≠ '*')
    (hv : a.visitor = .none) {w : Str} (hd : '-' ∉ w) (hw : 2 ≤ w.length) (hm : f ∈ w) :
    (effOk w a → processArg d false ('-' :: w) next a =
      .ok ⟨false, eff w a, '-' :: w.map (bl f), false, false⟩) ∧
    (¬effOk w a → processArg d false ('-' :: w) next a = .error (.fail .alreadySet)) := by
  have hmatch := argMatches_long (a := a) (by rw [hflag]; simp) hd hw
  obtain ⟨w', h1, h2, h3, h4, h5⟩ := blankFirst_some hf hm
  have hd' : '-' ∉ w' := by
    intro e
    rcases h5 _ e with e | e
    · exact absurd e (by decide)
    · exact hd e
  have hmatch' := argMatches_long (a := a) (by rw [hflag]; simp) hd' (by omega)
  have hvis : visit a false = .ok false := by simp [visit, hv]
  have hcomb : combinedMatch a ('-' :: w) = some ('-' :: w') := by
    rw [combinedMatch_dash hflag hd, h1]; rfl
  have hc0 : w.count f ≠ 0 := by omega
  unfold processArg
  rw [hu]
  simp only [Bool.false_eq_true, if_false]
  cases hs : a.slot with
  | value v => rcases hk with h | h <;> rw [hs] at h <;> cases h
  | multi v => rcases hk with h | h <;> rw [hs] at h <;> cases h
  | switch b =>
    simp only [processSwitch, Bool.false_eq_true, if_false, hmatch, hcomb, hmatch']
    by_cases hc1 : w.count f = 1
    · have hn : f ∉ w' := List.count_eq_zero.1 (by omega)
      have hc' : combinedMatch a ('-' :: w') = none := by
        rw [combinedMatch_dash hflag hd', blankFirst_none hn]; rfl
      have hw' : w' = w.map (bl f) := by rw [← h2, map_bl_id hn]
      rw [hc']
      constructor
      · intro hok
        have := hok f hflag (by rw [hs]; rfl)
        have hset : a.alreadySet = false := by
          rcases this with h | h
          · exact absurd h hc0
          · exact h.2
        simp [hset, hvis, hw', eff, hflag, hc0, hs]
      · intro hno
        have hset : a.alreadySet = true := by
          cases he : a.alreadySet
          · exfalso
            apply hno
            intro g hg _
            rw [hflag] at hg
            have hg : f = g := (List.cons.inj hg).1
            rw [← hg]
            exact .inr ⟨hc1, he⟩
          · rfl
        simp [hset]
    · have hn : f ∈ w' := List.count_pos_iff.1 (by omega)
      obtain ⟨w2, h21, _⟩ := blankFirst_some hf hn
      have hc' : combinedMatch a ('-' :: w') = some ('-' :: w2) := by
        rw [combinedMatch_dash hflag hd', h21]; rfl
      rw [hc']
      constructor
      · intro hok
        rcases hok f hflag (by rw [hs]; rfl) with h | h
        · exact absurd h hc0
        · exact absurd h.1 hc1
      · intro _
        simp
  | multiSwitch n =>
    have hb := blankAll_all hflag hf ('-' :: w').length hd' (by
      have := List.count_le_length (l := w') (a := f)
      simp
      omega)
    simp only [processMultiSwitch, Bool.false_eq_true, if_false, hmatch, hcomb, hb, hvis]
    constructor
    · intro _
      rw [h2, h3]
      simp [eff, hflag, hc0, hs]
    · intro hno
      exfalso
      apply hno
      intro g _ hk'
      rw [hs] at hk'; cases hk'

theorem scan_comb {d : Char} {next : Option Str} : ∀ {args : List (Arg V)} (w : Str),
    args.Pairwise Apart → (∀ a ∈ args, Sane a ∧ a.flag.length ≤ 1) → '-' ∉ w → '\x00' ∉ w →
    2 ≤ w.length → (∀ a ∈ args, SwitchLike a → a.flag ≠ ['*']) →
    (∀ x ∈ w, x = '*' ∨ ∃ a ∈ args, a.unlabeled = false ∧ SwitchLike a ∧ a.flag = [x] ∧
      a.visitor = .none) →
    ((∀ a ∈ args, effOk w a) → ∃ w', scan d false ('-' :: w) next args =
      .ok ⟨args.map (eff w), none, '-' :: w', false, false⟩ ∧ ∀ x ∈ w', x = '*') ∧
    ((¬∀ a ∈ args, effOk w a) → scan d false ('-' :: w) next args = .error (.fail .alreadySet))
  | [], w, _, _, hd, hn, hw, hstar, hx => by
    constructor
    · intro _
      refine ⟨w, rfl, ?_⟩
      intro x hxw
      rcases hx x hxw with h | ⟨a, ha, _⟩
      · exact h
      · cases ha
    · intro h
      exact absurd (fun a ha => by cases ha) h
  | a :: as, w, hp, hs, hd, hn, hw, hstar, hx => by
    obtain ⟨hpa, hpas⟩ := List.pairwise_cons.1 hp
    have hsas := fun b hb => hs b (List.mem_cons_of_mem _ hb)
    have hstaras := fun b hb => hstar b (List.mem_cons_of_mem a hb)
    -- the argument is not concerned
    have skipped : processArg d false ('-' :: w) next a = .ok ⟨false, a, '-' :: w, false, false⟩ →
        (∀ g, a.flag = [g] → SwitchLike a → w.count g = 0) →
        (∀ x ∈ w, x = '*' ∨ ∃ b ∈ as, b.unlabeled = false ∧ SwitchLike b ∧ b.flag = [x] ∧
          b.visitor = .none) →
        ((∀ b ∈ a :: as, effOk w b) → ∃ w', scan d false ('-' :: w) next (a :: as) =
          .ok ⟨(a :: as).map (eff w), none, '-' :: w', false, false⟩ ∧ ∀ x ∈ w', x = '*') ∧
        ((¬∀ b ∈ a :: as, effOk w b) →
          scan d false ('-' :: w) next (a :: as) = .error (.fail .alreadySet)) := by
      intro hproc hzero hx'
      obtain ⟨h1, h2⟩ := scan_comb w hpas hsas hd hn hw hstaras hx' (d := d) (next := next)
      obtain ⟨e1, e2⟩ := eff_zero (b := a) hzero
      unfold scan
      rw [hproc]
      simp only [Bool.false_eq_true, if_false]
      constructor
      · intro hall
        obtain ⟨w', h3, h4⟩ := h1 (fun b hb => hall b (List.mem_cons_of_mem _ hb))
        exact ⟨w', by rw [h3]; simp [e1], h4⟩
      · intro hno
        rw [h2 (fun hall => hno (fun b hb => by
          rcases List.mem_cons.1 hb with e | hb
          · rw [e]; exact e2
          · exact hall b hb))]
    -- the flags in the text belong to later arguments
    have later : (∀ g, a.flag = [g] → SwitchLike a → a.unlabeled = false → g ∉ w) →
        (∀ x ∈ w, x = '*' ∨ ∃ b ∈ as, b.unlabeled = false ∧ SwitchLike b ∧ b.flag = [x] ∧
          b.visitor = .none) := by
      intro hno x hxw
      rcases hx x hxw with h | ⟨b, hb, h1, h2, h3, h4⟩
      · exact .inl h
      · rcases List.mem_cons.1 hb with e | hb
        · rw [e] at h1 h2 h3
          exact absurd hxw (hno x h3 h2 h1)
        · exact .inr ⟨b, hb, h1, h2, h3, h4⟩
    cases hu : a.unlabeled with
    | true =>
      have hkind := (hs a (by simp)).1 hu
      have hnsw : ¬SwitchLike a := by
        intro h
        rcases hkind with h' | h' <;> rcases h with h | h <;> rw [h] at h' <;> cases h'
      have hx' := later (fun g _ h _ => absurd h hnsw)
      apply skipped _ (fun g _ h => absurd h hnsw) hx'
      have hall : ∀ x ∈ w, x = '*' := by
        intro x hxw
        rcases hx' x hxw with h | ⟨b, hb, h1, _⟩
        · exact h
        · have := (hpa b hb).2.2.2 hu
          rw [h1] at this; cases this
      have hbl : hasBlanks ('-' :: w) = true := by
        match w, hw with
        | x :: xs, _ => simp [hasBlanks, blankChar, hall x (by simp)]
      unfold processArg
      rw [hu]
      simp only [if_true, processUnlabeled, hbl]
      split <;> rfl
    | false =>
      by_cases hsw : SwitchLike a
      · by_cases hin : ∃ f, a.flag = [f] ∧ f ∈ w
        · obtain ⟨f, hflag, hfw⟩ := hin
          have hf : f ≠ '*' := fun e => hstar a (by simp) hsw (by rw [hflag, e])
          have hv : a.visitor = .none := by
            rcases hx f hfw with h | ⟨b, hb, h1, h2, h3, h4⟩
            · exact absurd h hf
            · rcases List.mem_cons.1 hb with e | hb
              · rw [← e]; exact h4
              · exact absurd (hflag.trans h3.symm) ((hpa b hb).2.2.1 (by rw [hflag]; simp))
          obtain ⟨hp1, hp2⟩ := processArg_comb (d := d) (next := next) hu hsw hflag hf hv hd hw hfw
          have hx1 : ∀ x ∈ w.map (bl f), x = '*' ∨ ∃ b ∈ as, b.unlabeled = false ∧
              SwitchLike b ∧ b.flag = [x] ∧ b.visitor = .none := by
            intro x hxw
            obtain ⟨y, hy, rfl⟩ := List.mem_map.1 hxw
            unfold bl
            by_cases e : y = f
            · left; rw [if_pos e]
            · rw [if_neg e]
              rcases hx y hy with h | ⟨b, hb, h1, h2, h3, h4⟩
              · exact .inl h
              · rcases List.mem_cons.1 hb with e' | hb
                · exfalso
                  rw [e', hflag] at h3
                  exact e (List.cons.inj h3).1.symm
                · exact .inr ⟨b, hb, h1, h2, h3, h4⟩
          have hnot : ∀ z, z ≠ '*' → z ∉ w → z ∉ w.map (bl f) := by
            intro z hz hzw hzm
            obtain ⟨y, hy, hyz⟩ := List.mem_map.1 hzm
            unfold bl at hyz
            split at hyz
            · exact hz hyz.symm
            · exact hzw (hyz ▸ hy)
          obtain ⟨h1, h2⟩ := scan_comb (w.map (bl f)) hpas hsas (hnot _ (by decide) hd)
            (hnot _ (by decide) hn) (by simpa using hw) hstaras hx1 (d := d) (next := next)
          have hcg : ∀ b ∈ as, eff (w.map (bl f)) b = eff w b ∧
              (effOk (w.map (bl f)) b ↔ effOk w b) := by
            intro b hb
            apply eff_congr
            intro g hg hbs
            apply count_bl
            · intro e
              exact (hpa b hb).2.2.1 (by rw [hflag]; simp) (by rw [hflag, hg, e])
            · intro e
              exact hstaras b hb hbs (by rw [hg, e])
          unfold scan
          constructor
          · intro hall
            rw [hp1 (hall a (by simp))]
            simp only [Bool.false_eq_true, if_false]
            obtain ⟨w', h3, h4⟩ := h1
              (fun b hb => (hcg b hb).2.2 (hall b (List.mem_cons_of_mem _ hb)))
            refine ⟨w', ?_, h4⟩
            rw [h3]
            simp only [List.map_cons]
            rw [List.map_congr_left (fun b hb => (hcg b hb).1)]
          · intro hno
            by_cases hok : effOk w a
            · rw [hp1 hok]
              simp only [Bool.false_eq_true, if_false]
              rw [h2]
              intro hall
              apply hno
              intro b hb
              rcases List.mem_cons.1 hb with e | hb
              · rw [e]; exact hok
              · exact (hcg b hb).2.1 (hall b hb)
            · rw [hp2 hok]
        · have hno : ∀ g, a.flag = [g] → g ∉ w := fun g hg hgw => hin ⟨g, hg, hgw⟩
          apply skipped _ (fun g hg _ => List.count_eq_zero.2 (hno g hg))
            (later (fun g hg _ _ => hno g hg))
          apply miss hu
          · intro h
            exfalso
            rcases hsw with h' | h' <;> rcases h with h | h <;> rw [h'] at h <;> cases h
          · intro _
            refine ⟨argMatches_long (hs a (by simp)).2 hd hw, ?_⟩
            apply combinedMatch_none
            match hfl : a.flag, (hs a (by simp)).2 with
            | [], _ => exact hn
            | [f], _ => exact hno f hfl
      · have hx' := later (fun g _ h _ => absurd h hsw)
        apply skipped _ (fun g _ h => absurd h hsw) hx'
        apply miss hu
        · intro _
          cases hb : hasBlanks ('-' :: w) with
          | true => exact .inl rfl
          | false =>
            right
            have hbw : '*' ∉ w := by
              intro e
              simp [hasBlanks, blankChar] at hb
              exact hb e
            cases hm : argMatches a (trimFlag d ('-' :: w)).1 with
            | false => rfl
            | true =>
              exfalso
              have hpre : ∃ v, '-' :: w = (trimFlag d ('-' :: w)).1 ++ v := by
                rcases trimFlag_fst (d := d) (t := '-' :: w) with h | ⟨v, h⟩
                · exact ⟨[], by rw [List.append_nil]; exact h⟩
                · exact ⟨d :: v, h⟩
              obtain ⟨v, hv⟩ := hpre
              simp only [argMatches, flagStartString, nameStartString, Bool.or_eq_true,
                Bool.and_eq_true, List.cons_append, List.nil_append] at hm
              rcases hm with ⟨h1, h2⟩ | h1
              · have h1 := of_decide_eq_true h1
                have h2 : a.flag ≠ [] := of_decide_eq_true h2
                rw [h1] at hv
                have hv := (List.cons.inj hv).2
                match hfl : a.flag, (hs a (by simp)).2, h2 with
                | [f], _, _ =>
                  rw [hfl] at hv
                  have hfw : f ∈ w := by rw [hv]; simp
                  rcases hx' f hfw with e | ⟨b, hb, _, _, h3, _⟩
                  · exact hbw (e ▸ hfw)
                  · exact (hpa b hb).2.2.1 (by rw [hfl]; simp) (by rw [hfl, h3])
              · have h1 := of_decide_eq_true h1
                rw [h1] at hv
                have hv := (List.cons.inj hv).2
                apply hd
                rw [hv]; simp
        · intro h
          exact absurd h hsw

/-! ### One by one -/

theorem toggle_eff {c : Char} {a : Arg V} (hflag : a.flag = [c]) (hk : kind a.slot = .switch) :
    eff [c] a = toggle a := by
  cases hs : a.slot <;> rw [hs] at hk <;> cases hk
  simp [eff, hflag, hs]

theorem scan_one {d : Char} {next : Option Str} {args : List (Arg V)} (h : Stat args) {c : Char}
    {a : Arg V} (ha : a ∈ args) (hu : a.unlabeled = false) (hk : SwitchLike a)
    (hflag : a.flag = [c]) (hv : a.visitor = .none) (hc : c ≠ '*') (hnul : c ≠ '\x00') :
    ((∀ a ∈ args, effOk [c] a) → scan d false ['-', c] next args =
      .ok ⟨args.map (eff [c]), some a.id, ['-', c], false, false⟩) ∧
    ((¬∀ a ∈ args, effOk [c] a) → scan d false ['-', c] next args =
      .error (.fail .alreadySet)) := by
  have hdash : c ≠ '-' := by
    intro e
    have := h.flagDash a ha (by rw [hflag, e])
    rw [hv] at this; cases this
  have hl : GoodLabel a ['-', c] := by
    refine ⟨.inl ⟨by rw [hflag]; simp, by rw [hflag]⟩, ?_, ?_, ?_⟩
    · simp; exact fun e => hc e.symm
    · simp; exact fun e => hnul e.symm
    · simp; exact hdash
  have hmiss : ∀ b ∈ args, b.id ≠ a.id → b.unlabeled = false →
      processArg d false ['-', c] next b = .ok ⟨false, b, ['-', c], false, false⟩ := by
    intro b hb hne hbu
    apply miss hbu
    · intro _
      right
      have htrim : (trimFlag d ['-', c]).1 = ['-', c] := by
        have : delimPos d ['-', c] ≤ 1 := by
          unfold delimPos
          split
          · exact Nat.zero_le _
          · rename_i i hi
            obtain ⟨hlt, _⟩ := List.findIdx?_eq_some_iff_getElem.1 hi
            simp at hlt; omega
        unfold trimFlag
        rw [if_neg (by omega)]
      rw [htrim]
      exact argMatches_other h ha hb hne hv hl
    · intro _
      exact ⟨argMatches_other h ha hb hne hv hl, combinedMatch_other h ha hb hne hv hl⟩
  have hother : ∀ b ∈ args, b.id ≠ a.id → eff [c] b = b ∧ effOk [c] b := by
    intro b hb hne
    apply eff_zero
    intro g hg _
    have := (h.differ ha hb hne).2 (by rw [hflag]; simp)
    rw [hg, hflag] at this
    rw [List.count_eq_zero]
    simp
    intro e; apply this; rw [e]
  have hmap : args.map (fun b => if b.id = a.id then eff [c] a else b) = args.map (eff [c]) := by
    apply List.map_congr_left
    intro b hb
    split
    · rename_i e; rw [eq_of_id h.ids hb ha e]
    · rename_i e; exact (hother b hb e).1.symm
  have hself : (∀ a ∈ args, effOk [c] a) ↔ effOk [c] a := by
    constructor
    · exact fun hall => hall a ha
    · intro hok b hb
      by_cases e : b.id = a.id
      · rw [eq_of_id h.ids hb ha e]; exact hok
      · exact (hother b hb e).2
  rw [hself]
  have hm := argMatches_self h ha hv hl
  have hvis : visit a false = .ok false := by simp [visit, hv]
  rcases hk with hk | hk
  · cases hs : a.slot with
    | switch b =>
      constructor
      · intro hok
        have hset : a.alreadySet = false := by
          rcases hok c hflag hk with h | h
          · simp at h
          · exact h.2
        have hr : processArg d false ['-', c] next a =
            .ok ⟨true, eff [c] a, ['-', c], false, false⟩ := by
          rw [toggle_eff hflag hk]
          simp [processArg, hu, hs, processSwitch, hm, hset, hvis]
        rw [scan_hit hu hr rfl h.apart ha hmiss]
        simp only [hmap]
      · intro hno
        have hset : a.alreadySet = true := by
          cases he : a.alreadySet
          · exfalso
            apply hno
            intro g hg _
            rw [hflag] at hg
            have hg : c = g := (List.cons.inj hg).1
            rw [← hg]
            exact .inr ⟨by simp, he⟩
          · rfl
        exact scan_err hu (by simp [processArg, hu, hs, processSwitch, hm, hset]) h.apart ha hmiss
    | value v => rw [hs] at hk; cases hk
    | multi v => rw [hs] at hk; cases hk
    | multiSwitch v => rw [hs] at hk; cases hk
  · cases hs : a.slot with
    | multiSwitch n =>
      constructor
      · intro _
        have hr : processArg d false ['-', c] next a =
            .ok ⟨true, eff [c] a, ['-', c], false, false⟩ := by
          have : eff [c] a = bump a 1 := by simp [eff, hflag, hs]
          rw [this]
          simp [processArg, hu, hs, processMultiSwitch, hm, hvis]
        rw [scan_hit hu hr rfl h.apart ha hmiss]
        simp only [hmap]
      · intro hno
        exfalso
        apply hno
        intro g _ hk'
        rw [hk] at hk'; cases hk'
    | value v => rw [hs] at hk; cases hk
    | multi v => rw [hs] at hk; cases hk
    | switch v => rw [hs] at hk; cases hk

theorem eff_cons (c : Char) (cs : Str) (a : Arg V) :
    (effOk (c :: cs) a ↔ effOk [c] a ∧ effOk cs (eff [c] a)) ∧
    (effOk (c :: cs) a → eff (c :: cs) a = eff cs (eff [c] a)) := by
  match hf : a.flag with
  | [] => simp [effOk, eff, hf]
  | x :: y :: l => simp [effOk, eff, hf]
  | [f] =>
    by_cases e : c = f
    · subst e
      cases hs : a.slot with
      | value v => simp [effOk, eff, hf, hs, kind]
      | multi v => simp [effOk, eff, hf, hs, kind]
      | multiSwitch v =>
        simp [effOk, eff, hf, hs, kind, bump]
        split
        · rename_i h
          simp [h]
        · simp
          omega
      | switch v =>
        simp [effOk, eff, hf, hs, kind, toggle]
        constructor
        · exact And.comm
        · intro h1 h2
          exact h1
    · have h0 : eff [c] a = a := (eff_zero (by
        intro g hg _
        rw [hf] at hg
        have hg : f = g := (List.cons.inj hg).1
        rw [← hg, List.count_eq_zero]
        simp; exact fun e' => e e'.symm)).1
      have hcount : ∀ g, a.flag = [g] → SwitchLike a → (c :: cs).count g = cs.count g := by
        intro g hg _
        rw [hf] at hg
        have hg : f = g := (List.cons.inj hg).1
        rw [← hg, List.count_cons]
        simp [e]
      obtain ⟨e1, e2⟩ := eff_congr hcount
      rw [h0]
      refine ⟨?_, fun _ => e1⟩
      rw [e2]
      constructor
      · intro h
        refine ⟨(eff_zero ?_).2, h⟩
        intro g hg _
        rw [hf] at hg
        have hg : f = g := (List.cons.inj hg).1
        rw [← hg, List.count_eq_zero]
        simp; exact fun e' => e e'.symm
      · exact fun h => h.2

/-- The switches that may be combined. -/
structure Switches (xors : List (List Nat)) (args : List (Arg V)) (cs : Str) : Prop where
  star : ∀ a ∈ args, SwitchLike a → a.flag ≠ ['*']
  nul : '\x00' ∉ cs
  each : ∀ x ∈ cs, ∃ a ∈ args, a.unlabeled = false ∧ SwitchLike a ∧ a.flag = [x] ∧
    a.visitor = .none ∧ a.required = false ∧ inGroup xors a.id = false

theorem Switches.map {xors : List (List Nat)} {args : List (Arg V)} {cs : Str}
    (h : Switches xors args cs) (f : Arg V → Arg V) (hf : ∀ a ∈ args, key (f a) = key a) :
    Switches xors (args.map f) cs := by
  refine ⟨?_, h.nul, ?_⟩
  · simp only [List.forall_mem_map]
    intro a ha hs
    unfold SwitchLike at hs
    rw [key_kind (hf a ha)] at hs
    rw [key_flag (hf a ha)]
    exact h.star a ha hs
  · intro x hx
    obtain ⟨a, ha, h1, h2, h3, h4, h5, h6⟩ := h.each x hx
    refine ⟨f a, List.mem_map.2 ⟨a, ha, rfl⟩, ?_, ?_, ?_, ?_, ?_, ?_⟩
    · rw [key_unlabeled (hf a ha)]; exact h1
    · unfold SwitchLike; rw [key_kind (hf a ha)]; exact h2
    · rw [key_flag (hf a ha)]; exact h3
    · rw [key_visitor (hf a ha)]; exact h4
    · rw [key_req (hf a ha)]; exact h5
    · rw [key_id (hf a ha)]; exact h6

theorem Switches.tail {xors : List (List Nat)} {args : List (Arg V)} {c : Char} {cs : Str}
    (h : Switches xors args (c :: cs)) : Switches xors args cs :=
  ⟨h.star, fun e => h.nul (List.mem_cons_of_mem _ e),
    fun x hx => h.each x (List.mem_cons_of_mem _ hx)⟩

theorem Switches.nodash {xors : List (List Nat)} {args : List (Arg V)} (hst : Stat args)
    {cs : Str} (h : Switches xors args cs) : '-' ∉ cs := by
  intro e
  obtain ⟨a, ha, _, _, h3, h4, _⟩ := h.each _ e
  have := hst.flagDash a ha h3
  rw [h4] at this; cases this

theorem Switches.nostar {xors : List (List Nat)} {args : List (Arg V)}
    {cs : Str} (h : Switches xors args cs) : '*' ∉ cs := by
  intro e
  obtain ⟨a, ha, _, h2, h3, _⟩ := h.each _ e
  exact h.star a ha h2 h3

theorem loop_oneByOne {xors : List (List Nat)} {d : Char} : ∀ (cs : Str) (args : List (Arg V)),
    Stat args → Switches xors args cs → ∀ (post : List Str) (count : Nat),
    ((∀ a ∈ args, effOk cs a) → loop xors d false (oneByOne cs ++ post) args false count =
      loop xors d false post (args.map (eff cs)) false count) ∧
    ((¬∀ a ∈ args, effOk cs a) → loop xors d false (oneByOne cs ++ post) args false count =
      .error (.fail .alreadySet))
  | [], args, hst, hsw, post, count => by
    have h0 : ∀ a : Arg V, eff [] a = a ∧ effOk [] a := fun a => eff_zero (by simp)
    constructor
    · intro _
      have : args.map (eff []) = args := by
        rw [List.map_congr_left (g := fun x => x) (fun a _ => (h0 a).1)]; simp
      rw [this]; rfl
    · intro h
      exact absurd (fun a _ => (h0 a).2) h
  | c :: cs, args, hst, hsw, post, count => by
    obtain ⟨a, ha, h1, h2, h3, h4, h5, h6⟩ := hsw.each c (by simp)
    have hc : c ≠ '*' := fun e => hsw.nostar (by simp [e])
    have hn : c ≠ '\x00' := fun e => hsw.nul (by simp [e])
    obtain ⟨hs1, hs2⟩ := scan_one (d := d) (next := (oneByOne cs ++ post).head?) hst ha h1 h2 h3 h4
      hc hn
    have hst' := hst.map (eff [c]) (fun a _ => key_eff _ a)
    have hsw' := hsw.tail.map (eff [c]) (fun a _ => key_eff _ a)
    obtain ⟨ih1, ih2⟩ := loop_oneByOne cs (args.map (eff [c])) hst' hsw' post count
    have hck : check xors (args.map (eff [c])) a.id = (args.map (eff [c]), 0) := by
      have hfind : xors.find? (fun g => decide (a.id ∈ g)) = none := by
        rw [List.find?_eq_none]
        intro g hg
        simp only [inGroup, List.any_eq_false, decide_eq_true_eq] at h6
        simpa using h6 g hg
      unfold check
      rw [hfind]
      simp only
      rw [if_neg]
      simp only [List.any_eq_true, not_exists, not_and, Bool.and_eq_true, decide_eq_true_eq]
      intro b hb he
      obtain ⟨b', hb', rfl⟩ := List.mem_map.1 hb
      rw [key_id (key_eff _ b')] at he
      rw [eq_of_id hst.ids hb' ha he]
      have hreq : (eff [c] a).required = false := by rw [key_req (key_eff _ a)]; exact h5
      unfold isRequired
      split <;> simp [hreq]
    have hstep : (∀ a ∈ args, effOk [c] a) →
        loop xors d false (oneByOne (c :: cs) ++ post) args false count =
          loop xors d false (oneByOne cs ++ post) (args.map (eff [c])) false count := by
      intro hall
      have : oneByOne (c :: cs) ++ post = ['-', c] :: (oneByOne cs ++ post) := rfl
      rw [this]
      conv => lhs; unfold loop
      rw [hs1 hall]
      simp only [hck, Nat.add_zero]
    constructor
    · intro hall
      rw [hstep (fun b hb => ((eff_cons c cs b).1.1 (hall b hb)).1), ih1]
      · rw [List.map_map]
        congr 1
        apply List.map_congr_left
        intro b hb
        exact ((eff_cons c cs b).2 (hall b hb)).symm
      · simp only [List.forall_mem_map]
        exact fun b hb => ((eff_cons c cs b).1.1 (hall b hb)).2
    · intro hno
      by_cases hall : ∀ a ∈ args, effOk [c] a
      · rw [hstep hall]
        apply ih2
        intro h
        apply hno
        intro b hb
        exact (eff_cons c cs b).1.2 ⟨hall b hb, h _ (List.mem_map.2 ⟨b, hb, rfl⟩)⟩
      · have : oneByOne (c :: cs) ++ post = ['-', c] :: (oneByOne cs ++ post) := rfl
        rw [this]
        unfold loop
        rw [hs2 hall]

theorem loop_together {xors : List (List Nat)} {d : Char} (cs : Str) (args : List (Arg V))
    (hne : cs ≠ []) (hst : Stat args) (hsw : Switches xors args cs) (post : List Str)
    (count : Nat) :
    loop xors d false (together cs :: post) args false count =
      loop xors d false (oneByOne cs ++ post) args false count := by
  match hcs : cs, hne with
  | [c], _ => rfl
  | c1 :: c2 :: cs', _ =>
    rw [← hcs] at hsw ⊢
    obtain ⟨h1, h2⟩ := scan_comb (d := d) (next := post.head?) cs hst.apart
      (fun a ha => ⟨hst.sane a ha, hst.flagLen a ha⟩) (hsw.nodash hst) hsw.nul
      (by rw [hcs]; simp) hsw.star
      (fun x hx => .inr (by
        obtain ⟨a, ha, h1, h2, h3, h4, _⟩ := hsw.each x hx
        exact ⟨a, ha, h1, h2, h3, h4⟩))
    obtain ⟨h3, h4⟩ := loop_oneByOne (d := d) cs args hst hsw post count
    by_cases hall : ∀ a ∈ args, effOk cs a
    · obtain ⟨w', hw', hb⟩ := h1 hall
      rw [h3 hall]
      unfold together
      conv => lhs; unfold loop
      rw [hw']
      simp only
      have : emptyCombined ('-' :: w') = true := by
        simp only [emptyCombined, flagStart, blankChar, Bool.and_eq_true, decide_true, true_and,
          List.all_eq_true]
        exact fun x hx => decide_eq_true (hb x hx)
      rw [this]
      rfl
    · rw [h4 hall]
      unfold together loop
      rw [h2 hall]

end Ecl.CmdLine
