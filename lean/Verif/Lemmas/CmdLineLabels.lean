import Verif.Lemmas.CmdLineDeclare
import Verif.Spec.CmdLine

/-! Helper lemmas: labels, values and switches. -/
set_option autoImplicit false
set_option linter.unusedSimpArgs false
set_option linter.unusedVariables false

namespace Ecl.CmdLine
open Spec

variable {V : Type _}

/-- The static facts about an argument list. -/
structure Stat (args : List (Arg V)) : Prop where
  flagLen : ∀ a ∈ args, a.flag.length ≤ 1
  flagDash : ∀ a ∈ args, a.flag = ['-'] → a.visitor = .ignore
  sane : ∀ a ∈ args, Sane a
  vis : ∀ a ∈ args, a.visitor ≠ .none → kind a.slot = .switch
  nameSpace : ∀ a ∈ args, ' ' ∉ a.name
  flagSpace : ∀ a ∈ args, a.flag ≠ [' ']
  apart : args.Pairwise Apart

theorem DInv.stat {c : T V} {n k : Nat} (h : DInv c n k) : Stat c.args :=
  ⟨fun a ha => (h.good a ha).flagLen, fun a ha => (h.good a ha).flagDash,
    fun a ha => (h.good a ha).sane, fun a ha hv => ((h.good a ha).vis hv).1,
    fun a ha => (h.good a ha).nameSpace, fun a ha => (h.good a ha).flagSpace, h.apart⟩

theorem key_visitor {a a' : Arg V} (h : key a' = key a) : a'.visitor = a.visitor :=
  congrArg Key.visitor h

theorem Stat.map {args : List (Arg V)} (h : Stat args) (f : Arg V → Arg V)
    (hf : ∀ a ∈ args, key (f a) = key a) : Stat (args.map f) := by
  refine ⟨?_, ?_, ?_, ?_, ?_, ?_, ?_⟩
  · simp only [List.forall_mem_map]
    intro a ha; rw [key_flag (hf a ha)]; exact h.flagLen a ha
  · simp only [List.forall_mem_map]
    intro a ha; rw [key_flag (hf a ha), key_visitor (hf a ha)]; exact h.flagDash a ha
  · simp only [List.forall_mem_map]
    intro a ha; exact (key_sane (hf a ha) ⟨h.sane a ha, h.flagLen a ha⟩).1
  · simp only [List.forall_mem_map]
    intro a ha; rw [key_visitor (hf a ha), key_kind (hf a ha)]; exact h.vis a ha
  · simp only [List.forall_mem_map]
    intro a ha; rw [key_name (hf a ha)]; exact h.nameSpace a ha
  · simp only [List.forall_mem_map]
    intro a ha; rw [key_flag (hf a ha)]; exact h.flagSpace a ha
  · rw [List.pairwise_map]
    refine List.Pairwise.imp_of_mem ?_ h.apart
    intro a b ha hb hab
    unfold Apart
    rw [key_name (hf a ha), key_name (hf b hb), key_id (hf a ha), key_id (hf b hb),
      key_flag (hf a ha), key_flag (hf b hb), key_unlabeled (hf a ha), key_unlabeled (hf b hb)]
    exact hab

theorem Stat.ids {args : List (Arg V)} (h : Stat args) :
    args.Pairwise (fun a b => a.id ≠ b.id) := h.apart.imp (fun h => h.2.1)

/-- Different arguments have different names and flags. -/
theorem Stat.differ {args : List (Arg V)} (h : Stat args) {a b : Arg V} (ha : a ∈ args)
    (hb : b ∈ args) (hne : b.id ≠ a.id) :
    b.name ≠ a.name ∧ (a.flag ≠ [] → b.flag ≠ a.flag) := by
  have aux : ∀ {l : List (Arg V)}, l.Pairwise Apart → a ∈ l → b ∈ l →
      b.name ≠ a.name ∧ (a.flag ≠ [] → b.flag ≠ a.flag) := by
    intro l hl h1 h2
    induction l with
    | nil => cases h1
    | cons x xs ih =>
      obtain ⟨hx, hxs⟩ := List.pairwise_cons.1 hl
      rcases List.mem_cons.1 h1 with e1 | h1' <;> rcases List.mem_cons.1 h2 with e2 | h2'
      · exact absurd (by rw [e1, e2]) hne
      · have := hx b h2'
        rw [← e1] at this
        exact ⟨fun e => this.1 e.symm, fun h3 e => this.2.2.1 h3 e.symm⟩
      · have := hx a h1'
        rw [← e2] at this
        refine ⟨this.1, fun h3 e => this.2.2.1 (by rw [e]; exact h3) e⟩
      · exact ih hxs h1' h2'
  exact aux h.apart ha hb

/-- A label of `a` that can be written on a command line. -/
structure GoodLabel (a : Arg V) (t : Str) : Prop where
  labels : Labels a.flag a.name t
  blank : '*' ∉ t
  nul : '\x00' ∉ t
  name : t ≠ ['-', '-']

theorem label_cases {args : List (Arg V)} (h : Stat args) {a : Arg V} (ha : a ∈ args)
    (hv : a.visitor = .none) {t : Str} (ht : GoodLabel a t) :
    (∃ c, a.flag = [c] ∧ t = ['-', c] ∧ c ≠ '-') ∨
      (t = '-' :: '-' :: a.name ∧ a.name ≠ []) := by
  rcases ht.labels with ⟨h1, h2⟩ | h2
  · left
    match hf : a.flag, h.flagLen a ha, h1 with
    | [c], _, _ =>
      refine ⟨c, rfl, by rw [h2, hf], ?_⟩
      intro e
      have := h.flagDash a ha (by rw [hf, e])
      rw [hv] at this; cases this
  · right
    refine ⟨h2, fun e => ht.name ?_⟩
    rw [h2, e]

theorem argMatches_self {args : List (Arg V)} (h : Stat args) {a : Arg V} (ha : a ∈ args)
    (hv : a.visitor = .none) {t : Str} (ht : GoodLabel a t) : argMatches a t = true := by
  rcases label_cases h ha hv ht with ⟨c, h1, h2, _⟩ | ⟨h1, _⟩
  · simp [argMatches, h1, h2, flagStartString]
  · simp [argMatches, h1, nameStartString]

theorem argMatches_false {a : Arg V} {t : Str} (h1 : t ≠ '-' :: a.flag)
    (h2 : t ≠ '-' :: '-' :: a.name) : argMatches a t = false := by
  simp [argMatches, flagStartString, nameStartString, h1, h2]

theorem argMatches_other {args : List (Arg V)} (h : Stat args) {a b : Arg V} (ha : a ∈ args)
    (hb : b ∈ args) (hne : b.id ≠ a.id) (hv : a.visitor = .none) {t : Str} (ht : GoodLabel a t) :
    argMatches b t = false := by
  have hd := h.differ ha hb hne
  rcases label_cases h ha hv ht with ⟨c, h1, h2, h3⟩ | ⟨h1, h4⟩
  · have h5 : b.flag ≠ [c] := by rw [← h1]; exact hd.2 (by simp [h1])
    simp only [argMatches, h2, flagStartString, nameStartString, List.cons_append, List.nil_append,
      Bool.or_eq_false_iff, Bool.and_eq_false_iff, decide_eq_false_iff_not]
    refine ⟨.inl ?_, ?_⟩
    · intro e; apply h5; simpa using e.symm
    · intro e
      have : c = '-' := by
        have := (List.cons.inj e).2
        exact (List.cons.inj this).1
      exact h3 this
  · simp only [argMatches, h1, flagStartString, nameStartString, List.cons_append, List.nil_append,
      Bool.or_eq_false_iff, Bool.and_eq_false_iff, decide_eq_false_iff_not]
    refine ⟨.inl ?_, ?_⟩
    · intro e
      have e1 : '-' :: a.name = b.flag := (List.cons.inj e).2
      have := h.flagLen b hb
      rw [← e1] at this
      cases hn : a.name with
      | nil => exact h4 hn
      | cons x xs => rw [hn] at this; simp at this
    · intro e
      have e1 : a.name = b.name := (List.cons.inj (List.cons.inj e).2).2
      exact hd.1 e1.symm

theorem blankFirst_none {f : Char} : ∀ {s : Str}, f ∉ s → blankFirst f s = none
  | [], _ => rfl
  | c :: cs, h => by
    have h1 : c ≠ f := fun e => h (by simp [e])
    have h2 : f ∉ cs := fun e => h (List.mem_cons_of_mem _ e)
    simp [blankFirst, h1, blankFirst_none h2]

/-- The flag character of `a` (NUL if it has none). -/
theorem combinedMatch_none {a : Arg V} {s : Str} (h : a.flag.headD '\x00' ∉ s.tail) :
    combinedMatch a s = none := by
  unfold combinedMatch
  split
  · rfl
  · split
    · rfl
    · split
      · rfl
      · rename_i c cs _ _
        have h' : a.flag.headD '\x00' ∉ cs := h
        rw [blankFirst_none h']; rfl

theorem combinedMatch_long {a : Arg V} {s : Str} : combinedMatch a ('-' :: '-' :: s) = none := by
  simp [combinedMatch, nameStartString, flagStart]

theorem combinedMatch_other {args : List (Arg V)} (h : Stat args) {a b : Arg V} (ha : a ∈ args)
    (hb : b ∈ args) (hne : b.id ≠ a.id) (hv : a.visitor = .none) {t : Str} (ht : GoodLabel a t) :
    combinedMatch b t = none := by
  have hd := h.differ ha hb hne
  rcases label_cases h ha hv ht with ⟨c, h1, h2, h3⟩ | ⟨h1, h4⟩
  · apply combinedMatch_none
    rw [h2]
    have h5 : b.flag ≠ [c] := by rw [← h1]; exact hd.2 (by simp [h1])
    have h6 : c ≠ '\x00' := by
      intro e; apply ht.nul; rw [h2, e]; simp
    match hf : b.flag, h.flagLen b hb with
    | [], _ => simp; exact fun e => h6 e.symm
    | [x], _ =>
      rw [hf] at h5
      simp
      intro e; apply h5; rw [e]
  · rw [h1]; exact combinedMatch_long

/-- A labeled argument that has nothing to do with the text. -/
theorem miss {d : Char} {tok : Str} {next : Option Str} {b : Arg V} (hu : b.unlabeled = false)
    (h1 : kind b.slot = .value ∨ kind b.slot = .multi →
      hasBlanks tok = true ∨ argMatches b (trimFlag d tok).1 = false)
    (h2 : kind b.slot = .switch ∨ kind b.slot = .multiSwitch →
      argMatches b tok = false ∧ combinedMatch b tok = none) :
    processArg d false tok next b = .ok ⟨false, b, tok, false, false⟩ := by
  unfold processArg
  rw [hu]
  simp only [Bool.false_eq_true, if_false]
  cases hs : b.slot with
  | value v =>
    simp only
    rcases h1 (.inl (by rw [hs]; rfl)) with h | h <;> simp [processValue, h]
  | multi vs =>
    simp only
    rcases h1 (.inr (by rw [hs]; rfl)) with h | h <;> simp [processMulti, h]
  | switch s =>
    have := h2 (.inl (by rw [hs]; rfl))
    simp [processSwitch, this]
  | multiSwitch s =>
    have := h2 (.inr (by rw [hs]; rfl))
    simp [processMultiSwitch, this]

theorem scan_none {d : Char} {tok : Str} {next : Option Str} : ∀ {args : List (Arg V)},
    (∀ b ∈ args, processArg d false tok next b = .ok ⟨false, b, tok, false, false⟩) →
    scan d false tok next args = .ok ⟨args, none, tok, false, false⟩
  | [], _ => rfl
  | a :: as, h => by
    unfold scan
    rw [h a (by simp)]
    simp only [Bool.false_eq_true, if_false]
    rw [scan_none (fun b hb => h b (List.mem_cons_of_mem _ hb))]

theorem scan_hit {d : Char} {tok : Str} {next : Option Str} {a : Arg V} {r : Step V}
    (hu : a.unlabeled = false) (hr : processArg d false tok next a = .ok r)
    (hm : r.matched = true) : ∀ {args : List (Arg V)}, args.Pairwise Apart → a ∈ args →
    (∀ b ∈ args, b.id ≠ a.id → b.unlabeled = false →
      processArg d false tok next b = .ok ⟨false, b, tok, false, false⟩) →
    scan d false tok next args =
      .ok ⟨args.map (fun b => if b.id = a.id then r.arg else b), some a.id, r.tok, r.skip, r.ign⟩
  | x :: xs, hp, ha, h => by
    obtain ⟨hx, hxs⟩ := List.pairwise_cons.1 hp
    rcases List.mem_cons.1 ha with e | ha
    · subst e
      unfold scan
      rw [hr]
      simp only [hm, if_true, List.map_cons]
      have : xs.map (fun b => if b.id = a.id then r.arg else b) = xs := by
        rw [List.map_congr_left (g := fun x => x)]
        · simp
        · intro b hb
          rw [if_neg]
          exact fun e => (hx b hb).2.1 e.symm
      rw [this]
    · have hxa := hx a ha
      have hxu : x.unlabeled = false := by
        cases e : x.unlabeled
        · rfl
        · have := hxa.2.2.2 e
          rw [hu] at this; cases this
      unfold scan
      rw [h x (by simp) hxa.2.1 hxu]
      simp only [Bool.false_eq_true, if_false]
      rw [scan_hit hu hr hm hxs ha (fun b hb => h b (List.mem_cons_of_mem _ hb))]
      simp [hxa.2.1]

theorem scan_err {d : Char} {tok : Str} {next : Option Str} {a : Arg V} {e : Stop}
    (hu : a.unlabeled = false) (hr : processArg d false tok next a = .error e) :
    ∀ {args : List (Arg V)}, args.Pairwise Apart → a ∈ args →
    (∀ b ∈ args, b.id ≠ a.id → b.unlabeled = false →
      processArg d false tok next b = .ok ⟨false, b, tok, false, false⟩) →
    scan d false tok next args = .error e
  | x :: xs, hp, ha, h => by
    obtain ⟨hx, hxs⟩ := List.pairwise_cons.1 hp
    rcases List.mem_cons.1 ha with e | ha
    · subst e
      unfold scan
      rw [hr]
    · have hxa := hx a ha
      have hxu : x.unlabeled = false := by
        cases e : x.unlabeled
        · rfl
        · have := hxa.2.2.2 e
          rw [hu] at this; cases this
      unfold scan
      rw [h x (by simp) hxa.2.1 hxu]
      simp only [Bool.false_eq_true, if_false]
      rw [scan_err hu hr hxs ha (fun b hb => h b (List.mem_cons_of_mem _ hb))]

/-! ### Trimming -/

theorem trimFlag_none {d : Char} {t : Str} (h : d ∉ t) : trimFlag d t = (t, []) := by
  have : t.findIdx? (· = d) = none := by
    rw [List.findIdx?_eq_none_iff]
    intro x hx
    simp
    intro e; exact h (e ▸ hx)
  simp [trimFlag, delimPos, this]

theorem findIdx?_append_cons {d : Char} : ∀ {t s : Str}, d ∉ t →
    (t ++ d :: s).findIdx? (· = d) = some t.length
  | [], s, _ => by simp [List.findIdx?_cons]
  | c :: cs, s, h => by
    have h1 : c ≠ d := fun e => h (by simp [e])
    have h2 : d ∉ cs := fun e => h (List.mem_cons_of_mem _ e)
    have := findIdx?_append_cons (s := s) h2
    simp [List.findIdx?_cons, h1, this]

theorem trimFlag_some {d : Char} {t s : Str} (h : d ∉ t) (hl : 1 < t.length) :
    trimFlag d (t ++ d :: s) = (t, s) := by
  have h1 : delimPos d (t ++ d :: s) = t.length := by
    unfold delimPos
    rw [findIdx?_append_cons h]
  unfold trimFlag
  rw [h1, if_pos hl]
  simp [List.drop_append]

theorem trimFlag_fst {d : Char} {t : Str} :
    t = (trimFlag d t).1 ∨ ∃ v, t = (trimFlag d t).1 ++ d :: v := by
  unfold trimFlag
  split
  · rename_i h
    right
    unfold delimPos at h ⊢
    cases hi : t.findIdx? (· = d) with
    | none => rw [hi] at h; simp at h
    | some i =>
      simp only
      obtain ⟨hlt, hd, _⟩ := List.findIdx?_eq_some_iff_getElem.1 hi
      refine ⟨t.drop (i + 1), ?_⟩
      have hd : t[i] = d := by simpa using hd
      rw [← hd, List.getElem_cons_drop, List.take_append_drop]
  · left; rfl

/-! ### One value -/

/-- The argument after it was given the value `v`. -/
def setValue (a : Arg V) (v : V) : Arg V :=
  { a with
    alreadySet := true
    slot := match a.slot with
      | .value _ => .value v
      | .multi vs => .multi (vs ++ [v])
      | s => s }

theorem key_setValue (a : Arg V) (v : V) : key (setValue a v) = key a := by
  unfold setValue key; cases h : a.slot <;> simp [kind]

theorem extractValue_ok {a : Arg V} {s : Str} {v : V} (h : a.ext s = .ok v)
    (hc : constraintOk a.constraint v = true)
    (hk : kind a.slot = .value ∨ kind a.slot = .multi) :
    ∃ a', extractValue a s = .ok a' ∧ { a' with alreadySet := true } = setValue a v ∧
      a'.visitor = a.visitor := by
  unfold extractValue setValue
  rw [h]
  cases hs : a.slot <;> simp [hs, kind] at hk
  · exact ⟨{ a with slot := .value v }, by simp only [hc, if_true], rfl, rfl⟩
  · rename_i vs
    exact ⟨{ a with slot := .multi (vs ++ [v]) }, by simp only [hc, if_true], rfl, rfl⟩

/-- A value argument that finds its value. -/
theorem hit_value {d : Char} {tok : Str} {next : Option Str} {a : Arg V} {s : Str} {v : V}
    {skip : Bool} (hu : a.unlabeled = false) (hk : kind a.slot = .value ∨ kind a.slot = .multi)
    (hnot : kind a.slot = .value → a.alreadySet = false) (hb : hasBlanks tok = false)
    (hm : argMatches a (trimFlag d tok).1 = true) (hv : a.visitor = .none)
    (hext : a.ext s = .ok v) (hc : constraintOk a.constraint v = true)
    (htake : takeValue d a (trimFlag d tok).2 next = (extractValue a s).map (·, skip)) :
    processArg d false tok next a = .ok ⟨true, setValue a v, tok, skip, false⟩ := by
  obtain ⟨a', h1, h2, h3⟩ := extractValue_ok hext hc hk
  rw [h1] at htake
  have htake : takeValue d a (trimFlag d tok).2 next = .ok (a', skip) := htake
  have hvis : visit a' false = .ok false := by simp [visit, h3, hv]
  unfold processArg
  rw [hu]
  simp only [Bool.false_eq_true, if_false]
  cases hs : a.slot with
  | value w =>
    simp [processValue, hb, hm, hnot (by rw [hs]; rfl), htake, hvis, h2]
  | multi vs =>
    simp [processMulti, hb, hm, htake, hvis, h2]
  | switch b => simp [hs, kind] at hk
  | multiSwitch n => simp [hs, kind] at hk

/-- The hypotheses on one item. -/
structure GoodItem (args : List (Arg V)) (x : Item V) (a : Arg V) : Prop where
  mem : a ∈ args
  id : a.id = x.id
  labeled : a.unlabeled = false
  kind : kind a.slot = .value ∨ kind a.slot = .multi
  label : GoodLabel a x.label
  ext : a.ext x.text = .ok x.value
  constraint : constraintOk a.constraint x.value = true

theorem GoodItem.vis {args : List (Arg V)} (h : Stat args) {x : Item V} {a : Arg V}
    (hx : GoodItem args x a) : a.visitor = .none := by
  cases hv : a.visitor <;> first | rfl | skip
  all_goals
    have := h.vis a hx.mem (by rw [hv]; simp)
    rcases hx.kind with h | h <;> rw [this] at h <;> cases h

theorem hasBlanks_false {t : Str} (h : '*' ∉ t) : hasBlanks t = false := by
  unfold hasBlanks
  cases t with
  | nil => rfl
  | cons c cs =>
    have : '*' ∉ cs := fun e => h (List.mem_cons_of_mem _ e)
    simpa [blankChar] using this

/-- The arguments after the item. -/
def give (x : Item V) (args : List (Arg V)) : List (Arg V) :=
  args.map (fun b => if b.id = x.id then setValue b x.value else b)

theorem give_stat {args : List (Arg V)} (h : Stat args) (x : Item V) : Stat (give x args) := by
  apply h.map
  intro a ha
  split
  · exact key_setValue a _
  · rfl

theorem label_nospace {args : List (Arg V)} (h : Stat args) {a : Arg V} (ha : a ∈ args)
    (hv : a.visitor = .none) {t : Str} (ht : GoodLabel a t) : ' ' ∉ t := by
  rcases label_cases h ha hv ht with ⟨c, h1, h2, h3⟩ | ⟨h1, _⟩
  · rw [h2]
    have := h.flagSpace a ha
    rw [h1] at this
    simp
    intro e; apply this; rw [← e]
  · rw [h1]
    have := h.nameSpace a ha
    simpa using this

theorem label_long {args : List (Arg V)} (h : Stat args) {a : Arg V} (ha : a ∈ args)
    (hv : a.visitor = .none) {t : Str} (ht : GoodLabel a t) : 1 < t.length := by
  rcases label_cases h ha hv ht with ⟨c, h1, h2, h3⟩ | ⟨h1, _⟩
  · rw [h2]; simp
  · rw [h1]; simp

theorem miss_label {args : List (Arg V)} (h : Stat args) {a b : Arg V} (ha : a ∈ args)
    (hb : b ∈ args) (hne : b.id ≠ a.id) (hv : a.visitor = .none) {t : Str} (ht : GoodLabel a t)
    {d : Char} (hd : d ∉ t) {next : Option Str} (hu : b.unlabeled = false) :
    processArg d false t next b = .ok ⟨false, b, t, false, false⟩ := by
  apply miss hu
  · intro _
    right
    rw [trimFlag_none hd]
    exact argMatches_other h ha hb hne hv ht
  · intro _
    exact ⟨argMatches_other h ha hb hne hv ht, combinedMatch_other h ha hb hne hv ht⟩

theorem map_give {args : List (Arg V)} {a : Arg V} (hid : args.Pairwise (fun a b => a.id ≠ b.id))
    (ha : a ∈ args) (v : V) :
    args.map (fun b => if b.id = a.id then setValue a v else b) =
      args.map (fun b => if b.id = a.id then setValue b v else b) := by
  apply List.map_congr_left
  intro b hb
  split
  · rename_i e
    rw [eq_of_id hid hb ha e]
  · rfl

theorem check_nil (args : List (Arg V)) (id : Nat) : (check [] args id).1 = args := by
  simp [check]

/-- An item in two texts. -/
theorem loop_spaced {args : List (Arg V)} (h : Stat args) {x : Item V} {a : Arg V}
    (hx : GoodItem args x a) (hnot : kind a.slot = .value → a.alreadySet = false)
    (count : Nat) :
    ∃ count', ∀ more : List Str, loop [] ' ' false (x.label :: x.text :: more) args false count =
      loop [] ' ' false more (give x args) false count' := by
  have hv := hx.vis h
  have hns := label_nospace h hx.mem hv hx.label
  have hhit : processArg ' ' false x.label (some x.text) a =
      .ok ⟨true, setValue a x.value, x.label, true, false⟩ := by
    apply hit_value hx.labeled hx.kind hnot (hasBlanks_false hx.label.blank)
      (by rw [trimFlag_none hns]; exact argMatches_self h hx.mem hv hx.label) hv hx.ext hx.constraint
    rw [trimFlag_none hns]
    simp [takeValue]
  have hscan := scan_hit hx.labeled hhit rfl h.apart hx.mem
    (fun b hb hne hu => miss_label h hx.mem hb hne hv hx.label hns hu)
  have hg : args.map (fun b => if b.id = a.id then setValue a x.value else b) = give x args := by
    rw [map_give h.ids hx.mem]; unfold give; rw [hx.id]
  simp only [hg] at hscan
  refine ⟨count + (check [] (give x args) a.id).2, fun more => ?_⟩
  conv => lhs; unfold loop
  simp only [List.head?_cons, hscan]
  conv => lhs; unfold loop
  rw [check_nil]

/-- An item in one text. -/
theorem loop_attached {args : List (Arg V)} (h : Stat args) {x : Item V} {a : Arg V} {d : Char}
    (hd : d ≠ ' ') (hdl : d ∉ x.label) (hdn : ∀ b ∈ args, d ∉ b.name)
    (hb : '*' ∉ x.label ++ d :: x.text) (hnul : '\x00' ∉ x.label ++ d :: x.text)
    (htext : x.text ≠ [])
    (hsw : x.label.length ≤ 2 → ∀ b ∈ args, kind b.slot = .switch ∨ kind b.slot = .multiSwitch →
      ∀ f, b.flag = [f] → f ∉ d :: x.text)
    (hx : GoodItem args x a) (hnot : kind a.slot = .value → a.alreadySet = false)
    (count : Nat) :
    ∃ count', ∀ more : List Str, loop [] d false ((x.label ++ d :: x.text) :: more) args false count =
      loop [] d false more (give x args) false count' := by
  have hv := hx.vis h
  have hl := label_long h hx.mem hv hx.label
  have htrim : trimFlag d (x.label ++ d :: x.text) = (x.label, x.text) := trimFlag_some hdl hl
  have hhit : ∀ next : Option Str, processArg d false (x.label ++ d :: x.text) next a =
      .ok ⟨true, setValue a x.value, x.label ++ d :: x.text, false, false⟩ := by
    intro next
    apply hit_value hx.labeled hx.kind hnot (hasBlanks_false hb)
      (by rw [htrim]; exact argMatches_self h hx.mem hv hx.label) hv hx.ext hx.constraint
    rw [htrim]
    simp [takeValue, htext]
  have hmiss : ∀ next : Option Str, ∀ b ∈ args, b.id ≠ a.id → b.unlabeled = false →
      processArg d false (x.label ++ d :: x.text) next b =
        .ok ⟨false, b, x.label ++ d :: x.text, false, false⟩ := by
    intro next b hbm hne hu
    apply miss hu
    · intro _
      right
      rw [htrim]
      exact argMatches_other h hx.mem hbm hne hv hx.label
    · intro hk
      constructor
      · apply argMatches_false
        · intro e
          have e1 := congrArg List.length e
          have := h.flagLen b hbm
          simp at e1
          omega
        · intro e
          have hin : d ∈ x.label ++ d :: x.text := by simp
          rw [e] at hin
          rcases List.mem_cons.1 hin with hin | hin
          · apply hdl
            rw [hin]
            rcases label_cases h hx.mem hv hx.label with ⟨c, h1, h2, h3⟩ | ⟨h1, _⟩
            · rw [h2]; simp
            · rw [h1]; simp
          · rcases List.mem_cons.1 hin with hin | hin
            · apply hdl
              rw [hin]
              rcases label_cases h hx.mem hv hx.label with ⟨c, h1, h2, h3⟩ | ⟨h1, _⟩
              · rw [h2]; simp
              · rw [h1]; simp
            · exact hdn b hbm hin
      · rcases label_cases h hx.mem hv hx.label with ⟨c, h1, h2, h3⟩ | ⟨h1, _⟩
        · apply combinedMatch_none
          have hs := hsw (by rw [h2]; simp) b hbm hk
          rw [h2]
          simp only [List.cons_append, List.nil_append, List.tail_cons]
          match hf : b.flag, h.flagLen b hbm with
          | [], _ =>
            intro e
            apply hnul
            rw [h2]
            simp at e ⊢
            exact e
          | [f], _ =>
            have := hs f hf
            have hdiff := (h.differ hx.mem hbm hne).2 (by rw [h1]; simp)
            rw [hf, h1] at hdiff
            intro e
            simp at e
            rcases e with e | e
            · apply hdiff; rw [e]
            · apply this; simpa using e
        · rw [h1]; exact combinedMatch_long
  have hscan := fun next => scan_hit hx.labeled (hhit next) rfl h.apart hx.mem (hmiss next)
  have hg : args.map (fun b => if b.id = a.id then setValue a x.value else b) = give x args := by
    rw [map_give h.ids hx.mem]; unfold give; rw [hx.id]
  simp only [hg] at hscan
  refine ⟨count + (check [] (give x args) a.id).2, fun more => ?_⟩
  conv => lhs; unfold loop
  simp only [hscan]
  rw [check_nil]

end Ecl.CmdLine
