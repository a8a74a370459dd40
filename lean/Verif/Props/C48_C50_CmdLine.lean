import Verif.Lemmas.CmdLineReject

/-!
# C48–C50: command lines

A program declares its arguments with `declare (new d hv) prog 3` (`d` is the delimiter, `hv` says
whether `--help` and `--version` are provided) and then parses the texts after the program name.
-/
set_option autoImplicit false
set_option linter.unusedSimpArgs false

namespace Ecl.Props
open Ecl Ecl.Spec Ecl.CmdLine

variable {V : Type _}

/-- The argument takes one value, or any number of values. -/
def TakesOne (a : Arg V) : Prop := ∃ v, a.slot = .value v
def TakesMany (a : Arg V) : Prop := ∃ vs, a.slot = .multi vs

/-- The argument is a switch (counting or not). -/
def IsSwitch (a : Arg V) : Prop := (∃ b, a.slot = .switch b) ∨ ∃ n, a.slot = .multiSwitch n

/-- `t` is a label of `a` that can be typed: without the characters `*` and NUL, and not `--`. -/
def LabelOf (a : Arg V) (t : List Char) : Prop :=
  Labels a.flag a.name t ∧ '*' ∉ t ∧ '\x00' ∉ t ∧ t ≠ ['-', '-']

/-- The item `x` gives a good value to the labelled argument `a`. -/
structure Gives (a : Arg V) (x : Item V) : Prop where
  id : x.id = a.id
  labelled : a.unlabeled = false
  takes : TakesOne a ∨ TakesMany a
  label : LabelOf a x.label
  reads : a.ext x.text = .ok x.value
  allowed : ∀ f, a.constraint = some f → f x.value = true

/-- The items are all good, and no argument for one value gets two. -/
structure GoodItems (c : T V) (items : List (Item V)) : Prop where
  gives : ∀ x ∈ items, ∃ a ∈ c.args, Gives a x
  once : ∀ a ∈ c.args, TakesOne a → (valuesFor items a.id).length ≤ 1

/-- The argument `a` after it received the values `vs`: without any it is untouched, otherwise it
is set and holds the value (the last one) or all the values. -/
def holding (a : Arg V) (vs : List V) : Arg V :=
  if vs.isEmpty then a
  else { a with
    alreadySet := true
    slot := match a.slot with
      | .value w => .value (vs.getLastD w)
      | .multi us => .multi (us ++ vs)
      | s => s }

/-! ### Glue -/

private theorem kindOne {a : Arg V} : TakesOne a ↔ kind a.slot = .value := by
  unfold TakesOne
  cases a.slot <;> simp [kind]

private theorem kindMany {a : Arg V} : TakesMany a ↔ kind a.slot = .multi := by
  unfold TakesMany
  cases a.slot <;> simp [kind]

private theorem kindSwitch {a : Arg V} : IsSwitch a ↔ SwitchLike a := by
  unfold IsSwitch SwitchLike
  cases a.slot <;> simp [kind]

private theorem LabelOf.good {a : Arg V} {t : List Char} (h : LabelOf a t) : GoodLabel a t :=
  ⟨h.1, h.2.1, h.2.2.1, h.2.2.2⟩

private theorem Gives.good {args : List (Arg V)} {a : Arg V} {x : Item V} (ha : a ∈ args)
    (h : Gives a x) : GoodItem args x a := by
  refine ⟨ha, h.id.symm, h.labelled, h.takes.imp kindOne.1 kindMany.1, h.label.good, h.reads, ?_⟩
  unfold constraintOk
  split
  · rfl
  · rename_i f hf; exact h.allowed f hf

private theorem GoodItems.feasible {c : T V} {n : Nat} (hc : DInv c n 0) {items : List (Item V)}
    (h : GoodItems c items) : Feasible c.args items := by
  refine ⟨?_, fun a ha hk => h.once a ha (kindOne.2 hk), fun a ha _ _ => (hc.good a ha).unset.1⟩
  intro x hx
  obtain ⟨a, ha, hg⟩ := h.gives x hx
  exact ⟨a, hg.good ha⟩

private theorem visitorNone {c : T V} {n : Nat} (hc : DInv c n 0) {a : Arg V} (ha : a ∈ c.args)
    (hk : TakesOne a ∨ TakesMany a) : a.visitor = .none := by
  cases hv : a.visitor <;> first | rfl | skip
  all_goals
    have := ((hc.good a ha).vis (by rw [hv]; simp)).1
    rcases hk with h | h
    · rw [kindOne.1 h] at this; cases this
    · rw [kindMany.1 h] at this; cases this

private theorem holding_required (a : Arg V) (vs : List V) :
    (received a vs).required = a.required ∧
      ((received a vs).alreadySet = (a.alreadySet || !vs.isEmpty)) := by
  unfold received
  cases vs <;> simp

/-! ### C48: values -/

/-- **C48** (values in separate texts, programs without exclusive groups): if every text is a label
or the value after it, every argument named gets its values, in order, every other argument stays
as it was declared, and `parse` succeeds — provided every required argument is named. -/
theorem C48_values_partial {hv : Bool} {prog : List (Stmt V)} {c : T V}
    (hc : declare (new ' ' hv) prog 3 = .ok c) (hx : c.xors = []) {items : List (Item V)}
    (hi : GoodItems c items)
    (hreq : ∀ a ∈ c.args, a.required = true → valuesFor items a.id ≠ []) :
    parse c (spaced items) =
      .ok { c with args := c.args.map fun a => holding a (valuesFor items a.id) } := by
  obtain ⟨⟨n, hd⟩, _, hdel⟩ := declared hc
  obtain ⟨count, hl⟩ := loop_items_spaced items c.args hd.stat (hi.feasible hd) 0
  have hl := hl []
  rw [List.append_nil, giveAll_eq] at hl
  have hl : loop c.xors c.delim false (spaced items) c.args c.ignoreRest 0 =
      .ok (c.args.map fun a => received a (valuesFor items a.id), false, count) := by
    rw [hx, hdel, hd.ignoreRest, hl]
    rfl
  have := (parse_end hd hx hl).1 (by
    simp only [List.forall_mem_map]
    intro a ha hr
    rw [(holding_required a _).1] at hr
    rw [(holding_required a _).2]
    have := hreq a ha hr
    cases hvs : valuesFor items a.id with
    | nil => exact absurd hvs this
    | cons v vs => simp)
  rw [this]
  have h1 : c.ignoreRest = false := hd.ignoreRest
  congr 1
  cases c
  simp only at h1
  subst h1
  rfl

/-- **C48** (values attached with a delimiter such as `=`): the same, if no text contains `*`, the
values are not empty, the delimiter occurs in no name and no label, and — for labels of one
character — no switch character occurs in the value or is the delimiter. -/
theorem C48_attached_partial {d : Char} {hv : Bool} {prog : List (Stmt V)} {c : T V}
    (hc : declare (new d hv) prog 3 = .ok c) (hdsp : d ≠ ' ') (hx : c.xors = [])
    {items : List (Item V)} (hi : GoodItems c items)
    (hreq : ∀ a ∈ c.args, a.required = true → valuesFor items a.id ≠ [])
    (hname : ∀ a ∈ c.args, d ∉ a.name)
    (htext : ∀ x ∈ items, x.text ≠ [] ∧ d ∉ x.label ∧ '*' ∉ d :: x.text ∧ '\x00' ∉ d :: x.text)
    (hsw : ∀ x ∈ items, x.label.length ≤ 2 → ∀ b ∈ c.args, IsSwitch b →
      ∀ f, b.flag = [f] → f ∉ d :: x.text) :
    parse c (attached d items) =
      .ok { c with args := c.args.map fun a => holding a (valuesFor items a.id) } := by
  obtain ⟨⟨n, hd⟩, _, hdel⟩ := declared hc
  obtain ⟨count, hl⟩ := loop_items_attached hdsp items c.args hd.stat (hi.feasible hd)
    (fun x hxm => ⟨(htext x hxm).2.1, hname, (htext x hxm).2.2.1, (htext x hxm).2.2.2,
      (htext x hxm).1, fun h b hb hk => hsw x hxm h b hb (kindSwitch.2 hk)⟩) 0
  have hl := hl []
  rw [List.append_nil, giveAll_eq] at hl
  have hl : loop c.xors c.delim false (attached d items) c.args c.ignoreRest 0 =
      .ok (c.args.map fun a => received a (valuesFor items a.id), false, count) := by
    rw [hx, hdel, hd.ignoreRest, hl]
    rfl
  have := (parse_end hd hx hl).1 (by
    simp only [List.forall_mem_map]
    intro a ha hr
    rw [(holding_required a _).1] at hr
    rw [(holding_required a _).2]
    have := hreq a ha hr
    cases hvs : valuesFor items a.id with
    | nil => exact absurd hvs this
    | cons v vs => simp)
  rw [this]
  have h1 : c.ignoreRest = false := hd.ignoreRest
  congr 1
  cases c
  simp only at h1
  subst h1
  rfl

/-- **C48** (integers): the decimal numeral of every 32 bit integer is read as that integer. -/
theorem C48_integers {i : Int} (h1 : -(2 ^ 31) ≤ i) (h2 : i < 2 ^ 31) :
    extractInt (numeral i) = .ok i := extractInt_numeral h1 h2

private theorem parse_after {hv : Bool} {prog : List (Stmt V)} {c : T V}
    (hc : declare (new ' ' hv) prog 3 = .ok c) (hx : c.xors = []) {items : List (Item V)}
    (hi : GoodItems c items) {more : List Str} {e : Stop}
    (h : ∀ count, Stat (giveAll items c.args) →
      loop [] ' ' false more (giveAll items c.args) false count = .error e) :
    parse c (spaced items ++ more) = .error e := by
  obtain ⟨⟨n, hd⟩, _, hdel⟩ := declared hc
  obtain ⟨count, hl⟩ := loop_items_spaced items c.args hd.stat (hi.feasible hd) 0
  unfold parse
  rw [hx, hdel, hd.ignoreRest, hl, h count (giveAll_stat items hd.stat)]

private theorem mem_giveAll {items : List (Item V)} {args : List (Arg V)} {a : Arg V}
    (ha : a ∈ args) : received a (valuesFor items a.id) ∈ giveAll items args := by
  rw [giveAll_eq]
  exact List.mem_map.2 ⟨a, ha, rfl⟩

/-- **C48** (duplicates): naming an argument for one value a second time is rejected, whatever
follows. -/
theorem C48_duplicate_rejected {hv : Bool} {prog : List (Stmt V)} {c : T V}
    (hc : declare (new ' ' hv) prog 3 = .ok c) (hx : c.xors = []) {items : List (Item V)}
    (hi : GoodItems c items) {a : Arg V} (ha : a ∈ c.args) (hl : a.unlabeled = false)
    (hk : TakesOne a) (hgiven : valuesFor items a.id ≠ []) {t : List Char} (ht : LabelOf a t)
    (more : List (List Char)) :
    parse c (spaced items ++ t :: more) = .error (.fail .alreadySet) := by
  obtain ⟨⟨n, hd⟩, _, _⟩ := declared hc
  apply parse_after hc hx hi
  intro count hst
  have hkey := key_received a (valuesFor items a.id)
  have hm := mem_giveAll (items := items) ha
  have hv := visitorNone hd ha (.inl hk)
  apply loop_err hst hm (by rw [key_unlabeled hkey]; exact hl) (by rw [key_visitor hkey]; exact hv)
    (ht.good.congr hkey)
  apply process_dup hst hm (by rw [key_unlabeled hkey]; exact hl)
    (by rw [key_visitor hkey]; exact hv) (by rw [key_kind hkey]; exact kindOne.1 hk) _
    (ht.good.congr hkey)
  rw [(holding_required a _).2]
  cases hvs : valuesFor items a.id with
  | nil => exact absurd hvs hgiven
  | cons v vs => simp

/-- **C48** (missing value): a label at the very end of the command line is rejected. -/
theorem C48_missing_value_rejected {hv : Bool} {prog : List (Stmt V)} {c : T V}
    (hc : declare (new ' ' hv) prog 3 = .ok c) (hx : c.xors = []) {items : List (Item V)}
    (hi : GoodItems c items) {a : Arg V} (ha : a ∈ c.args) (hl : a.unlabeled = false)
    (hk : TakesMany a ∨ (TakesOne a ∧ valuesFor items a.id = [])) {t : List Char}
    (ht : LabelOf a t) :
    parse c (spaced items ++ [t]) = .error (.fail .missingValue) := by
  obtain ⟨⟨n, hd⟩, _, _⟩ := declared hc
  apply parse_after hc hx hi
  intro count hst
  have hkey := key_received a (valuesFor items a.id)
  have hm := mem_giveAll (items := items) ha
  have hv := visitorNone hd ha (hk.elim .inr (fun h => .inl h.1))
  apply loop_err hst hm (by rw [key_unlabeled hkey]; exact hl) (by rw [key_visitor hkey]; exact hv)
    (ht.good.congr hkey)
  apply process_err hst hm (by rw [key_unlabeled hkey]; exact hl)
    (by rw [key_visitor hkey]; exact hv) _ _ (ht.good.congr hkey) (next := none) rfl
  · rw [key_kind hkey]
    exact hk.elim (fun h => .inr (kindMany.1 h)) (fun h => .inl (kindOne.1 h.1))
  · intro hkv
    rw [key_kind hkey] at hkv
    rcases hk with hk | hk
    · rw [kindMany.1 hk] at hkv; cases hkv
    · rw [(holding_required a _).2, hk.2, (hd.good a ha).unset.1]; rfl

/-- **C48** (bad values): a label followed by a text its argument cannot read, or whose value its
constraint forbids, is rejected, whatever follows. -/
theorem C48_bad_value_rejected {hv : Bool} {prog : List (Stmt V)} {c : T V}
    (hc : declare (new ' ' hv) prog 3 = .ok c) (hx : c.xors = []) {items : List (Item V)}
    (hi : GoodItems c items) {a : Arg V} (ha : a ∈ c.args) (hl : a.unlabeled = false)
    (hk : TakesMany a ∨ (TakesOne a ∧ valuesFor items a.id = [])) {t : List Char}
    (ht : LabelOf a t) {s : List Char}
    (hbad : a.ext s = .failure ∨ a.ext s = .tooMany ∨
      ∃ v f, a.ext s = .ok v ∧ a.constraint = some f ∧ f v = false)
    (more : List (List Char)) :
    ∃ e, parse c (spaced items ++ t :: s :: more) = .error (.fail e) := by
  obtain ⟨⟨n, hd⟩, _, _⟩ := declared hc
  have hkey := key_received a (valuesFor items a.id)
  have hm := mem_giveAll (items := items) ha
  have hv := visitorNone hd ha (hk.elim .inr (fun h => .inl h.1))
  have hkind : kind a.slot = .value ∨ kind a.slot = .multi :=
    hk.elim (fun h => .inr (kindMany.1 h)) (fun h => .inl (kindOne.1 h.1))
  have herr : ∃ e, extractValue (received a (valuesFor items a.id)) s = .error (.fail e) := by
    unfold extractValue
    rw [key_ext hkey, key_constraint hkey]
    rcases hbad with h | h | ⟨v, f, h1, h2, h3⟩
    · exact ⟨_, by rw [h]⟩
    · exact ⟨_, by rw [h]⟩
    · refine ⟨.constraint, ?_⟩
      rw [h1]
      have hco : constraintOk a.constraint v = false := by rw [h2]; exact h3
      have hk' : kind (received a (valuesFor items a.id)).slot = kind a.slot := key_kind hkey
      cases hs : (received a (valuesFor items a.id)).slot with
      | value w => simp [hco]
      | multi w => simp [hco]
      | switch b =>
        rw [hs] at hk'
        rcases hkind with h | h <;> rw [h] at hk' <;> cases hk'
      | multiSwitch b =>
        rw [hs] at hk'
        rcases hkind with h | h <;> rw [h] at hk' <;> cases hk'
  obtain ⟨e, he⟩ := herr
  refine ⟨e, ?_⟩
  apply parse_after hc hx hi
  intro count hst
  apply loop_err hst hm (by rw [key_unlabeled hkey]; exact hl) (by rw [key_visitor hkey]; exact hv)
    (ht.good.congr hkey)
  apply process_err hst hm (by rw [key_unlabeled hkey]; exact hl)
    (by rw [key_visitor hkey]; exact hv) (by rw [key_kind hkey]; exact hkind) _
    (ht.good.congr hkey) (next := some s) he
  intro hkv
  rw [key_kind hkey] at hkv
  rcases hk with hk | hk
  · rw [kindMany.1 hk] at hkv; cases hkv
  · rw [(holding_required a _).2, hk.2, (hd.good a ha).unset.1]; rfl

/-- **C48** (unknown labels): a text that is nobody's label is rejected, whatever follows, if the
program has no unlabelled arguments.  (The text does not start with a single `-`, or has no switch
character after it, contains no space, and is not `-` followed by stars only.) -/
theorem C48_unknown_rejected {hv : Bool} {prog : List (Stmt V)} {c : T V}
    (hc : declare (new ' ' hv) prog 3 = .ok c) (hx : c.xors = []) {items : List (Item V)}
    (hi : GoodItems c items) {t : List Char} (hall : ∀ a ∈ c.args, a.unlabeled = false)
    (hunknown : ∀ a ∈ c.args, ¬Labels a.flag a.name t) (hsp : ' ' ∉ t) (hnul : '\x00' ∉ t)
    (hsw : (∃ s, t = '-' :: '-' :: s) ∨ t.head? ≠ some '-' ∨
      ∀ a ∈ c.args, IsSwitch a → ∀ f, a.flag = [f] → f ∉ t.tail)
    (hstars : ¬∃ s, t = '-' :: s ∧ ∀ x ∈ s, x = '*') (more : List (List Char)) :
    parse c (spaced items ++ t :: more) = .error (.fail .noMatch) := by
  apply parse_after hc hx hi
  intro count hst
  apply loop_unknown hst
  rw [giveAll_eq]
  apply Unknown.map
  · refine ⟨hall, hunknown, hsp, hnul, ?_, hstars⟩
    rcases hsw with h | h | h
    · exact .inl h
    · exact .inr (.inl h)
    · exact .inr (.inr fun a ha hk => h a ha (kindSwitch.2 hk))
  · intro a _
    exact key_received a _

/-! ### C49: required and exclusive arguments -/

/-- **C49** (exclusive groups of arguments for one value): after a successful `parse` every required
argument outside of all groups is set and — if it has labels — some text of the command line names
it; and of every exclusive group exactly one member is set, and some text names it. -/
theorem C49_required_partial {d : Char} {hv : Bool} {prog : List (Stmt V)} {c c' : T V}
    (hc : declare (new d hv) prog 3 = .ok c)
    (hgrp : ∀ a ∈ c.args, (∃ g ∈ c.xors, a.id ∈ g) → TakesOne a)
    {argv : List (List Char)} (h : parse c argv = .ok c') :
    (∀ a ∈ c'.args, a.required = true → (¬∃ g ∈ c.xors, a.id ∈ g) →
      isSet a = true ∧ (a.unlabeled = false → ∃ t ∈ argv, Names d a.flag a.name t)) ∧
    (∀ g ∈ c.xors, g ≠ [] → ∃ a ∈ c'.args, a.id ∈ g ∧ isSet a = true ∧
      (a.unlabeled = false → ∃ t ∈ argv, Names d a.flag a.name t) ∧
      ∀ b ∈ c'.args, b.id ∈ g → isSet b = true → b = a) ∧
    c'.args.map Arg.id = c.args.map Arg.id := by
  obtain ⟨⟨n, hd⟩, hdis, hdel⟩ := declared hc
  obtain ⟨hk, hi, hreq, hgs⟩ := parse_ok hd hdis false
    (fun a ha hg => .inl (kindOne.1 (hgrp a ha (inGroup_iff.1 hg)))) (by simp) h
  have hkind : ∀ a' ∈ c'.args, ∃ a ∈ c.args, key a = key a' := by
    intro a' ha'
    have : key a' ∈ c.args.map key := by rw [← hk]; exact List.mem_map.2 ⟨a', ha', rfl⟩
    obtain ⟨a, ha, e⟩ := List.mem_map.1 this
    exact ⟨a, ha, e⟩
  have hnames : ∀ a' ∈ c'.args, isSet a' = true →
      (kind a'.slot = .value ∨ kind a'.slot = .multi) → a'.unlabeled = false →
      ∃ t ∈ argv, Names d a'.flag a'.name t := by
    intro a' ha' hset hkd hu
    unfold parse at h
    split at h
    · cases h
    · rename_i args ign count hl
      split at h
      · cases h
      · split at h
        · cases h
        · cases h
          rw [hdel] at hl
          rcases loop_given argv false c.args c.ignoreRest 0 args ign count hd.stat.ids
            (fun a ha => ⟨hd.stat.sane a ha, hd.stat.flagLen a ha⟩) hl a' ha' hset hu hkd with
            ⟨a, ha, _, hs⟩ | h1
          · rw [isSet, (hd.good a ha).unset.1] at hs; cases hs
          · exact h1
  refine ⟨?_, ?_, ?_⟩
  · intro a' ha' hr hng
    have hng' : inGroup c.xors a'.id = false := by
      cases e : inGroup c.xors a'.id
      · rfl
      · exact absurd (inGroup_iff.1 e) hng
    have h1 := hreq a' ha' hr hng'
    have h2 : a'.xorSet = false := by
      cases e : a'.xorSet
      · rfl
      · have := (hi.xset a' ha' e).2
        rw [hng'] at this; cases this
    have hset : isSet a' = true := by simp [isSet, h1, h2]
    exact ⟨hset, hnames a' ha' hset (hi.req a' ha' hr hng')⟩
  · intro g hg hne
    have := hgs g hg hne
    simp only [groupSet, List.any_eq_true, Bool.and_eq_true, decide_eq_true_eq] at this
    obtain ⟨a, ha, hag, hset⟩ := this
    have hkd : kind a.slot = .value := by
      rcases hi.grp a ha (inGroup_iff.2 ⟨g, hg, hag⟩) with h | h
      · exact h
      · cases h.1
    refine ⟨a, ha, hag, hset, hnames a ha hset (.inl hkd), ?_⟩
    intro b hb hbg hbs
    by_cases e : b.id = a.id
    · exact eq_of_id hi.ids hb ha e
    · have := (hi.excl g hg a ha b hb hag hbg (fun e' => e e'.symm) hset).2
      rw [isSet, this] at hbs
      simp at hbs
  · have : ∀ l : List (Arg V), l.map Arg.id = (l.map key).map Key.id := by
      intro l; rw [List.map_map]; rfl
    rw [this, hk, ← this]

/-- **C49** (exclusive groups with switches): the same if no text of the command line is a
combination of switches. -/
theorem C49_switches_partial {d : Char} {hv : Bool} {prog : List (Stmt V)} {c c' : T V}
    (hc : declare (new d hv) prog 3 = .ok c)
    (hgrp : ∀ a ∈ c.args, (∃ g ∈ c.xors, a.id ∈ g) → TakesOne a ∨ ∃ b, a.slot = .switch b)
    {argv : List (List Char)} (hsimple : ∀ t ∈ argv, NotCombined t) (h : parse c argv = .ok c') :
    (∀ a ∈ c'.args, a.required = true → (¬∃ g ∈ c.xors, a.id ∈ g) → isSet a = true) ∧
    (∀ g ∈ c.xors, g ≠ [] → ∃ a ∈ c'.args, a.id ∈ g ∧ isSet a = true ∧
      ∀ b ∈ c'.args, b.id ∈ g → isSet b = true → b = a) := by
  obtain ⟨⟨n, hd⟩, hdis, hdel⟩ := declared hc
  obtain ⟨hk, hi, hreq, hgs⟩ := parse_ok hd hdis true
    (fun a ha hg => (hgrp a ha (inGroup_iff.1 hg)).imp kindOne.1
      (fun ⟨b, hb⟩ => ⟨rfl, by rw [hb]; rfl⟩)) (fun _ => hsimple) h
  refine ⟨?_, ?_⟩
  · intro a' ha' hr hng
    have hng' : inGroup c.xors a'.id = false := by
      cases e : inGroup c.xors a'.id
      · rfl
      · exact absurd (inGroup_iff.1 e) hng
    have h1 := hreq a' ha' hr hng'
    have h2 : a'.xorSet = false := by
      cases e : a'.xorSet
      · rfl
      · have := (hi.xset a' ha' e).2
        rw [hng'] at this; cases this
    simp [isSet, h1, h2]
  · intro g hg hne
    have := hgs g hg hne
    simp only [groupSet, List.any_eq_true, Bool.and_eq_true, decide_eq_true_eq] at this
    obtain ⟨a, ha, hag, hset⟩ := this
    refine ⟨a, ha, hag, hset, ?_⟩
    intro b hb hbg hbs
    by_cases e : b.id = a.id
    · exact eq_of_id hi.ids hb ha e
    · have := (hi.excl g hg a ha b hb hag hbg (fun e' => e e'.symm) hset).2
      rw [isSet, this] at hbs
      simp at hbs

/-- **C49** (rejection): if all texts are good but some required argument is not named, `parse`
fails. -/
theorem C49_missing_required_rejected {hv : Bool} {prog : List (Stmt V)} {c : T V}
    (hc : declare (new ' ' hv) prog 3 = .ok c) (hx : c.xors = []) {items : List (Item V)}
    (hi : GoodItems c items) {a : Arg V} (ha : a ∈ c.args) (hr : a.required = true)
    (hno : valuesFor items a.id = []) :
    parse c (spaced items) = .error (.fail .requiredMissing) := by
  obtain ⟨⟨n, hd⟩, _, hdel⟩ := declared hc
  obtain ⟨count, hl⟩ := loop_items_spaced items c.args hd.stat (hi.feasible hd) 0
  have hl := hl []
  rw [List.append_nil, giveAll_eq] at hl
  have hl : loop c.xors c.delim false (spaced items) c.args c.ignoreRest 0 =
      .ok (c.args.map fun a => received a (valuesFor items a.id), false, count) := by
    rw [hx, hdel, hd.ignoreRest, hl]
    rfl
  apply (parse_end hd hx hl).2
  refine ⟨_, List.mem_map.2 ⟨a, ha, rfl⟩, ?_, ?_⟩
  · rw [(holding_required a _).1]; exact hr
  · rw [(holding_required a _).2, hno, (hd.good a ha).unset.1]; rfl

/-! ### C50: switches -/

/-- Every character is the flag of a declared switch that is not one of the built-in ones and not
in an exclusive group. -/
def AllSwitches (c : T V) (cs : List Char) : Prop :=
  ∀ x ∈ cs, ∃ a ∈ c.args, IsSwitch a ∧ a.flag = [x] ∧ a.visitor = .none ∧
    ¬∃ g ∈ c.xors, a.id ∈ g

private theorem switches {c : T V} {n : Nat} (hd : DInv c n 0) {cs : List Char}
    (hsw : AllSwitches c cs) (hnul : '\x00' ∉ cs)
    (hstar : ∀ a ∈ c.args, IsSwitch a → a.flag ≠ ['*']) : Switches c.xors c.args cs := by
  refine ⟨fun a ha hk => hstar a ha (kindSwitch.2 hk), hnul, ?_⟩
  intro x hx
  obtain ⟨a, ha, h1, h2, h3, h4⟩ := hsw x hx
  have hk := kindSwitch.1 h1
  have hg : inGroup c.xors a.id = false := by
    cases e : inGroup c.xors a.id
    · rfl
    · exact absurd (inGroup_iff.1 e) h4
  refine ⟨a, ha, ?_, hk, h2, h3, ?_, hg⟩
  · cases hu : a.unlabeled
    · rfl
    · have := (hd.good a ha).unflag hu
      rw [h2] at this; cases this
  · cases hr : a.required
    · rfl
    · exfalso
      rcases hd.req a ha hr hg with h | h <;> rcases hk with h' | h' <;> rw [h] at h' <;> cases h'

/-- **C50**: giving switches together has exactly the same outcome as giving them one by one —
success with the same values or failure for the same reason — whatever follows, for switches
outside of exclusive groups.  (`*` must not be the flag of a switch.) -/
theorem C50_together_partial {d : Char} {hv : Bool} {prog : List (Stmt V)} {c : T V}
    (hc : declare (new d hv) prog 3 = .ok c) {cs : List Char} (hne : cs ≠ [])
    (hsw : AllSwitches c cs) (hnul : '\x00' ∉ cs)
    (hstar : ∀ a ∈ c.args, IsSwitch a → a.flag ≠ ['*']) (post : List (List Char)) :
    parse c (together cs :: post) = parse c (oneByOne cs ++ post) := by
  obtain ⟨⟨n, hd⟩, _, _⟩ := declared hc
  unfold parse
  rw [hd.ignoreRest, loop_together cs c.args hne hd.stat (switches hd hsw hnul hstar)]

/-- **C50**: the same after any sequence of good items (values in separate texts, no exclusive
groups). -/
theorem C50_together_after_items_partial {hv : Bool} {prog : List (Stmt V)} {c : T V}
    (hc : declare (new ' ' hv) prog 3 = .ok c) (hx : c.xors = []) {items : List (Item V)}
    (hi : GoodItems c items) {cs : List Char} (hne : cs ≠ []) (hsw : AllSwitches c cs)
    (hnul : '\x00' ∉ cs) (hstar : ∀ a ∈ c.args, IsSwitch a → a.flag ≠ ['*'])
    (post : List (List Char)) :
    parse c (spaced items ++ together cs :: post) =
      parse c (spaced items ++ (oneByOne cs ++ post)) := by
  obtain ⟨⟨n, hd⟩, _, hdel⟩ := declared hc
  have hsw' := switches hd hsw hnul hstar
  rw [hx] at hsw'
  obtain ⟨count, hl⟩ := loop_items_spaced items c.args hd.stat (hi.feasible hd) 0
  unfold parse
  rw [hd.ignoreRest, hx, hdel, hl, hl, loop_together cs _ hne (giveAll_stat items hd.stat)]
  rw [giveAll_eq]
  exact hsw'.map _ (fun a _ => key_received a _)

/-- The argument after the switches `cs` were each given once: a switch among them is toggled, a
counting switch counts one more, and everything else is as before. -/
def flipped (cs : List Char) (a : Arg V) : Arg V :=
  match a.flag, a.slot with
  | [x], .switch b => if x ∈ cs then { a with alreadySet := true, slot := .switch (!b) } else a
  | [x], .multiSwitch n =>
    if x ∈ cs then { a with alreadySet := true, slot := .multiSwitch (n + 1) } else a
  | _, _ => a

private theorem count_one {x : Char} : ∀ {cs : List Char}, cs.Nodup → x ∈ cs → cs.count x = 1
  | y :: ys, h, hm => by
    obtain ⟨h1, h2⟩ := List.nodup_cons.1 h
    rw [List.count_cons]
    by_cases e : y = x
    · subst e
      rw [List.count_eq_zero.2 h1]; simp
    · have hm' : x ∈ ys := by
        rcases List.mem_cons.1 hm with e' | hm
        · exact absurd e'.symm e
        · exact hm
      rw [count_one h2 hm']; simp [e]

private theorem eff_flipped {cs : List Char} (h : cs.Nodup) (a : Arg V) :
    eff cs a = flipped cs a := by
  have hc : ∀ x, cs.count x = if x ∈ cs then 1 else 0 := by
    intro x
    split
    · rename_i hx
      exact count_one h hx
    · rename_i hx; exact List.count_eq_zero.2 hx
  unfold eff flipped
  match hf : a.flag with
  | [] => simp
  | x :: y :: l => simp
  | [x] =>
    by_cases hm : x ∈ cs
    · cases hs : a.slot <;> simp [hc, hm, toggle, bump, hs, hf]
    · cases hs : a.slot <;> simp [hc, hm, hs]

/-- **C50** (the effect): different switches given together, to a program without required
arguments and exclusive groups, are each toggled (or counted once), and nothing else changes. -/
theorem C50_effect {d : Char} {hv : Bool} {prog : List (Stmt V)} {c : T V}
    (hc : declare (new d hv) prog 3 = .ok c) (hx : c.xors = [])
    (hopt : ∀ a ∈ c.args, a.required = false) {cs : List Char} (hne : cs ≠ [])
    (hnodup : cs.Nodup) (hsw : AllSwitches c cs) (hnul : '\x00' ∉ cs)
    (hstar : ∀ a ∈ c.args, IsSwitch a → a.flag ≠ ['*']) :
    parse c [together cs] = .ok { c with args := c.args.map (flipped cs) } := by
  obtain ⟨⟨n, hd⟩, _, hdel⟩ := declared hc
  have hsw' := switches hd hsw hnul hstar
  rw [C50_together_partial hc hne hsw hnul hstar]
  have hok : ∀ a ∈ c.args, effOk cs a := by
    intro a ha f _ _
    by_cases hm : f ∈ cs
    · exact .inr ⟨count_one hnodup hm, (hd.good a ha).unset.1⟩
    · exact .inl (List.count_eq_zero.2 hm)
  have hl := (loop_oneByOne (d := c.delim) cs c.args hd.stat hsw' [] 0).1 hok
  have hl : loop c.xors c.delim false (oneByOne cs ++ []) c.args c.ignoreRest 0 =
      .ok (c.args.map (flipped cs), false, 0) := by
    rw [hd.ignoreRest, hl, List.map_congr_left (fun a _ => eff_flipped hnodup a)]
    rfl
  rw [(parse_end hd hx hl).1]
  · have h1 : c.ignoreRest = false := hd.ignoreRest
    congr 1
    cases c
    simp only at h1
    subst h1
    rfl
  · simp only [List.forall_mem_map]
    intro a ha hr
    have : (flipped cs a).required = a.required := by
      rw [← eff_flipped hnodup]
      exact key_req (key_eff cs a)
    rw [this, hopt a ha] at hr
    cases hr

/-- **C50** (values, separate texts): the characters of a value never toggle a switch: whatever the
texts of the values, every switch stays as declared. -/
theorem C50_value_characters_partial {hv : Bool} {prog : List (Stmt V)} {c c' : T V}
    (hc : declare (new ' ' hv) prog 3 = .ok c) (hx : c.xors = []) {items : List (Item V)}
    (hi : GoodItems c items) (h : parse c (spaced items) = .ok c') :
    ∀ a ∈ c.args, IsSwitch a → a ∈ c'.args := by
  intro a ha hk
  by_cases hreq : ∀ a ∈ c.args, a.required = true → valuesFor items a.id ≠ []
  · rw [C48_values_partial hc hx hi hreq] at h
    cases h
    refine List.mem_map.2 ⟨a, ha, ?_⟩
    have hv : valuesFor items a.id = [] := by
      cases hvs : valuesFor items a.id with
      | nil => rfl
      | cons v vs =>
        exfalso
        have hm : v ∈ valuesFor items a.id := by rw [hvs]; simp
        simp only [valuesFor, List.mem_map, List.mem_filter, decide_eq_true_eq] at hm
        obtain ⟨x, ⟨hxm, hxid⟩, _⟩ := hm
        obtain ⟨b, hb, hg⟩ := hi.gives x hxm
        obtain ⟨⟨n, hd⟩, _, _⟩ := declared hc
        have := eq_of_id hd.stat.ids ha hb (hxid.symm.trans hg.id)
        subst this
        rcases hk with ⟨b, hb⟩ | ⟨b, hb⟩ <;> rcases hg.takes with ⟨v, hv⟩ | ⟨v, hv⟩ <;>
          rw [hb] at hv <;> cases hv
    rw [hv]; rfl
  · exfalso
    have : ∃ b ∈ c.args, b.required = true ∧ valuesFor items b.id = [] := by
      by_contra hcon
      apply hreq
      intro b hb hr he
      exact hcon ⟨b, hb, hr, he⟩
    obtain ⟨b, hb, hr, he⟩ := this
    rw [C49_missing_required_rejected hc hx hi hb hr he] at h
    cases h

/-! ### Non-vacuity and refutations -/

section Demo

namespace CmdLineDemo

def val (f n : List Char) (req : Bool) : Decl Int :=
  ⟨f, n, n, req, false, extractInt, none, .value 7⟩
def many (f n : List Char) : Decl Int := ⟨f, n, n, false, false, extractInt, none, .multi []⟩
def sw (f n : List Char) : Decl Int :=
  ⟨f, n, n, false, false, extractInt, none, .switch false⟩
def cnt (f n : List Char) : Decl Int :=
  ⟨f, n, n, false, false, extractInt, none, .multiSwitch 0⟩

/-- The result of a whole program: the error, or the values of the arguments (last declared
first) and whether they are set. -/
def run (d : Char) (prog : List (Stmt Int)) (argv : List (List Char)) :
    Except Stop (List (Slot Int × Bool)) :=
  match declare (new d false) prog 3 with
  | .error _ => .error .ub
  | .ok c =>
    match parse c argv with
    | .error e => .error e
    | .ok c' => .ok (c'.args.map fun a => (a.slot, isSet a))

end CmdLineDemo

open CmdLineDemo

private def demoProg : List (Stmt Int) :=
  [.one (val ['n'] ['n', 'u', 'm'] true), .one (many ['m'] ['m', 'a']), .one (sw ['a'] ['x']),
   .one (cnt ['b'] ['y'])]

private def demo : T Int := (declare (new ' ' false) demoProg 3).toOption.getD (new ' ' false)

private theorem demo_ok : declare (new ' ' false) demoProg 3 = .ok demo := by rfl

private def demoItems : List (Item Int) :=
  [⟨4, ['-', 'm'], ['1'], 1⟩, ⟨3, ['-', '-', 'n', 'u', 'm'], ['-', '5'], -5⟩,
   ⟨4, ['-', '-', 'm', 'a'], ['2'], 2⟩]

private theorem demo_args : demo.args.map Arg.id = [6, 5, 4, 3, 2] := by decide

private theorem demo_good : GoodItems demo demoItems := by
  constructor
  · intro x hx
    simp only [demoItems, List.mem_cons, List.not_mem_nil, or_false] at hx
    have h4 : ∃ a ∈ demo.args, a = construct (many ['m'] ['m', 'a']) 4 :=
      ⟨_, .tail _ (.tail _ (.head _)), rfl⟩
    have h3 : ∃ a ∈ demo.args, a = construct (val ['n'] ['n', 'u', 'm'] true) 3 :=
      ⟨_, .tail _ (.tail _ (.tail _ (.head _))), rfl⟩
    rcases hx with rfl | rfl | rfl
    · obtain ⟨a, ha, rfl⟩ := h4
      exact ⟨_, ha, rfl, rfl, .inr ⟨_, rfl⟩,
        ⟨.inl ⟨(by decide), rfl⟩, (by decide), (by decide), (by decide)⟩, (by decide),
        (by intro f hf; cases hf)⟩
    · obtain ⟨a, ha, rfl⟩ := h3
      exact ⟨_, ha, rfl, rfl, .inl ⟨_, rfl⟩,
        ⟨.inr rfl, (by decide), (by decide), (by decide)⟩, (by decide),
        (by intro f hf; cases hf)⟩
    · obtain ⟨a, ha, rfl⟩ := h4
      exact ⟨_, ha, rfl, rfl, .inr ⟨_, rfl⟩,
        ⟨.inr rfl, (by decide), (by decide), (by decide)⟩, (by decide),
        (by intro f hf; cases hf)⟩
  · have : ∀ i ∈ [6, 5, 3, 2], (valuesFor demoItems i).length ≤ 1 := by decide
    intro a ha ⟨v, hv⟩
    have hid : a.id ∈ demo.args.map Arg.id := List.mem_map.2 ⟨a, ha, rfl⟩
    rw [demo_args] at hid
    by_cases e : a.id = 4
    · exfalso
      have hne : ∀ b ∈ demo.args, b.id = 4 → kind b.slot = .multi := by decide
      have := hne a ha e
      rw [hv] at this; cases this
    · apply this
      simp only [List.mem_cons, List.not_mem_nil, or_false] at hid ⊢
      omega

/-- The hypotheses of `C48_values_partial` are met by a program with four arguments and three
items, and the result is as expected. -/
example : parse demo (spaced demoItems) =
    .ok { demo with args := demo.args.map fun a => holding a (valuesFor demoItems a.id) } :=
  C48_values_partial demo_ok rfl demo_good (by decide)

example : run ' ' demoProg (spaced demoItems) =
    .ok [(.multiSwitch 0, false), (.switch false, false), (.multi [1, 2], true),
      (.value (-5), true), (.switch false, false)] := by decide

/-- And so are those of the rejections. -/
example : parse demo (spaced demoItems ++ [['-', 'n'], ['1']]) = .error (.fail .alreadySet) :=
  C48_duplicate_rejected (a := construct (val ['n'] ['n', 'u', 'm'] true) 3) demo_ok rfl demo_good
    (.tail _ (.tail _ (.tail _ (.head _)))) rfl ⟨_, rfl⟩ (by decide)
    ⟨.inl ⟨(by decide), rfl⟩, (by decide), (by decide), (by decide)⟩ _

example : parse demo (spaced ([] : List (Item Int)) ++ [['-', 'n']]) = .error (.fail .missingValue) :=
  C48_missing_value_rejected (a := construct (val ['n'] ['n', 'u', 'm'] true) 3) demo_ok rfl
    ⟨(by intro x hx; cases hx), (by intro a _ _; exact Nat.zero_le 1)⟩
    (.tail _ (.tail _ (.tail _ (.head _)))) rfl (.inr ⟨⟨_, rfl⟩, rfl⟩)
    ⟨.inl ⟨(by decide), rfl⟩, (by decide), (by decide), (by decide)⟩

example : parse demo (spaced demoItems ++ [['-', 'q']]) = .error (.fail .noMatch) :=
  C48_unknown_rejected demo_ok rfl demo_good (by decide) (by unfold Labels; decide) (by decide)
    (by decide)
    (.inr (.inr (by
      intro a ha _ f hf
      have : ∀ a ∈ demo.args, a.flag ∈ [['n'], ['m'], ['a'], ['b'], ['-']] := by decide
      have := this a ha
      rw [hf] at this
      simp at this
      rcases this with h | h | h | h | h <;> subst h <;> decide)))
    (by rintro ⟨s, h1, h2⟩; cases h1; exact absurd (h2 'q' (by simp)) (by decide)) _

example : ∃ e, parse demo (spaced demoItems ++ [['-', 'm'], ['x'], ['-', 'a']]) =
    .error (.fail e) :=
  C48_bad_value_rejected (a := construct (many ['m'] ['m', 'a']) 4) demo_ok rfl demo_good
    (.tail _ (.tail _ (.head _))) rfl (.inl ⟨_, rfl⟩)
    ⟨.inl ⟨(by decide), rfl⟩, (by decide), (by decide), (by decide)⟩ (.inl (by decide)) _

private def demoEq : T Int := (declare (new '=' false) demoProg 3).toOption.getD (new ' ' false)

/-- `-n=-5 --ma=2` with the delimiter `=`. -/
example : run '=' demoProg (attached '=' [⟨3, ['-', 'n'], ['-', '5'], -5⟩,
      (⟨4, ['-', '-', 'm', 'a'], ['2'], 2⟩ : Item Int)]) =
    .ok [(.multiSwitch 0, false), (.switch false, false), (.multi [2], true),
      (.value (-5), true), (.switch false, false)] := by decide

/-- **C48 and C50, refuted** for attached values: with the delimiter `=`, the switch `b` and the
argument `n`, the command line `-n=0b` is not seen as a value at all if the switch was declared
after the argument: the switch takes its `b` out of the value, and the rest is rejected. -/
theorem C48_fails_attached :
    run '=' [.one { val ['n'] ['n'] false with ext := fun s => .ok (s.length : Int) },
      .one (sw ['b'] ['y'])] [['-', 'n', '=', '0', 'b']] = .error (.fail .noMatch) ∧
    run '=' [.one (sw ['b'] ['y']),
      .one { val ['n'] ['n'] false with ext := fun s => .ok (s.length : Int) }]
      [['-', 'n', '=', '0', 'b']] =
      .ok [(.value 2, true), (.switch false, false), (.switch false, false)] := by decide

/-- **C48, refuted** for attached values with a star: `-n=2*` is rejected although the same value
in a separate text is accepted. -/
theorem C48_fails_star :
    run '=' [.one { val ['n'] ['n'] false with ext := fun s => .ok (s.length : Int) }]
      [['-', 'n', '=', '2', '*']] = .error (.fail .noMatch) ∧
    run ' ' [.one { val ['n'] ['n'] false with ext := fun s => .ok (s.length : Int) }]
      [['-', 'n'], ['2', '*']] = .ok [(.value 2, true), (.switch false, false)] := by decide

/-- **C48, refuted** for empty values: an empty text is accepted as the value of an integer
argument, which is then set but keeps its default, and a second use is rejected. -/
theorem C48_fails_empty :
    run ' ' [.one (val ['n'] ['n'] true)] [['-', 'n'], []] =
      .ok [(.value 7, true), (.switch false, false)] := by decide

/-- **C49, refuted**: a counting switch in an exclusive group is counted every time it is given, so
that `-v -v` stands in for two required arguments that are missing. -/
theorem C49_fails_counting :
    run ' ' [.xor [cnt ['v'] ['v'], sw ['w'] ['w']], .one (val ['n'] ['n'] true),
      .one (val ['m'] ['m'] true)] [['-', 'v'], ['-', 'v']] =
      .ok [(.value 7, false), (.value 7, false), (.switch false, false), (.multiSwitch 2, true),
        (.switch false, false)] := by decide

/-- **C49, refuted**: two members of an exclusive group of switches are both accepted if one of them
is part of a combination. -/
theorem C49_fails_combined :
    run ' ' [.xor [sw ['a'] ['a'], sw ['c'] ['c']], .one (sw ['x'] ['x'])]
      [['-', 'a', 'x'], ['-', 'c']] =
      .ok [(.switch true, true), (.switch true, true), (.switch true, false),
        (.switch false, false)] := by decide

/-- **C50, refuted** for exclusive groups: `-a -x` is accepted while `-ax` is rejected as if the
group had not been used. -/
theorem C50_fails_exclusive :
    run ' ' [.xor [sw ['a'] ['a'], sw ['c'] ['c']], .one (sw ['x'] ['x'])]
      (oneByOne ['a', 'x']) =
      .ok [(.switch true, true), (.switch false, false), (.switch true, true),
        (.switch false, false)] ∧
    run ' ' [.xor [sw ['a'] ['a'], sw ['c'] ['c']], .one (sw ['x'] ['x'])]
      [together ['a', 'x']] = .error (.fail .requiredMissing) := by decide

/-- **C50, refuted** for attached values: a switch whose character occurs in the value attached to
another argument takes it for itself, and the command line is rejected: `-n=1` with a switch
`-1`. -/
theorem C50_fails_value_characters :
    run '=' [.one (val ['n'] ['n'] false), .one (sw ['1'] ['y'])] [['-', 'n', '=', '1']] =
      .error (.fail .noMatch) ∧
    run '=' [.one (val ['n'] ['n'] false), .one (sw ['2'] ['y'])] [['-', 'n', '=', '1']] =
      .ok [(.switch false, false), (.value 1, true), (.switch false, false)] := by decide

private def xprog : List (Stmt Int) :=
  [.xor [val ['a'] ['a'] false, val ['c'] ['c'] false], .one (val ['n'] ['n'] true)]
private def xdemo : T Int := (declare (new ' ' false) xprog 3).toOption.getD (new ' ' false)
private theorem xdemo_ok : declare (new ' ' false) xprog 3 = .ok xdemo := by rfl

/-- The hypotheses of `C49_required_partial` are met. -/
example : ∃ c', parse xdemo [['-', 'c'], ['1'], ['-', 'n'], ['2']] = .ok c' ∧
    (∀ a ∈ xdemo.args, (∃ g ∈ xdemo.xors, a.id ∈ g) → TakesOne a) := by
  refine ⟨_, rfl, ?_⟩
  have : ∀ a ∈ xdemo.args, (∃ g ∈ xdemo.xors, a.id ∈ g) → kind a.slot = .value := by decide
  exact fun a ha hg => kindOne.2 (this a ha hg)

example : run ' ' xprog [['-', 'c'], ['1'], ['-', 'n'], ['2']] =
    .ok [(.value 2, true), (.value 1, true), (.value 7, false), (.switch false, false)] := by decide
example : run ' ' xprog [['-', 'c'], ['1'], ['-', 'n'], ['2'], ['-', 'a'], ['3']] =
    .error (.fail .alreadySet) := by decide
example : run ' ' xprog [['-', 'n'], ['2']] = .error (.fail .requiredMissing) := by decide

private def sprog : List (Stmt Int) :=
  [.xor [sw ['a'] ['a'], sw ['c'] ['c']], .one (val ['n'] ['n'] true)]
private def sdemo : T Int := (declare (new ' ' false) sprog 3).toOption.getD (new ' ' false)

/-- The hypotheses of `C49_switches_partial` are met. -/
example : declare (new ' ' false) sprog 3 = .ok sdemo ∧
    (∃ c', parse sdemo [['-', 'c'], ['-', 'n'], ['2']] = .ok c') ∧
    (∀ a ∈ sdemo.args, (∃ g ∈ sdemo.xors, a.id ∈ g) → TakesOne a ∨ ∃ b, a.slot = .switch b) ∧
    ∀ t ∈ [['-', 'c'], ['-', 'n'], ['2']], NotCombined t := by
  refine ⟨rfl, ⟨_, rfl⟩, ?_, ?_⟩
  · have : ∀ a ∈ sdemo.args, kind a.slot = .value ∨ kind a.slot = .switch := by decide
    intro a ha _
    rcases this a ha with h | h
    · exact .inl (kindOne.2 h)
    · right
      cases hs : a.slot with
      | switch b => exact ⟨b, rfl⟩
      | value b => rw [hs] at h; cases h
      | multi b => rw [hs] at h; cases h
      | multiSwitch b => rw [hs] at h; cases h
  · intro t ht
    simp only [List.mem_cons, List.not_mem_nil, or_false] at ht
    rcases ht with rfl | rfl | rfl
    · exact ⟨by decide, by intro cs h _; cases h; decide⟩
    · exact ⟨by decide, by intro cs h _; cases h; decide⟩
    · exact ⟨by decide, by intro cs h _; cases h⟩

private def wprog : List (Stmt Int) :=
  [.one (sw ['a'] ['a']), .one (cnt ['b'] ['b']), .one (val ['n'] ['n'] false),
    .one (sw ['c'] ['c'])]
private def wdemo : T Int := (declare (new ' ' false) wprog 3).toOption.getD (new ' ' false)
private theorem wdemo_ok : declare (new ' ' false) wprog 3 = .ok wdemo := by rfl

private theorem wdemo_switches : AllSwitches wdemo ['c', 'b', 'a'] := by
  intro x hx
  simp only [List.mem_cons, List.not_mem_nil, or_false] at hx
  rcases hx with rfl | rfl | rfl
  · exact ⟨_, .head _, .inl ⟨_, rfl⟩, rfl, rfl, by rintro ⟨g, hg, _⟩; cases hg⟩
  · exact ⟨_, .tail _ (.tail _ (.head _)), .inr ⟨_, rfl⟩, rfl, rfl,
      by rintro ⟨g, hg, _⟩; cases hg⟩
  · exact ⟨_, .tail _ (.tail _ (.tail _ (.head _))), .inl ⟨_, rfl⟩, rfl, rfl,
      by rintro ⟨g, hg, _⟩; cases hg⟩

/-- The hypotheses of the C50 theorems are met: `-cba -n 5` is `-c -b -a -n 5`. -/
example : parse wdemo (together ['c', 'b', 'a'] :: [['-', 'n'], ['5']]) =
    parse wdemo (oneByOne ['c', 'b', 'a'] ++ [['-', 'n'], ['5']]) :=
  C50_together_partial wdemo_ok (by decide) wdemo_switches (by decide)
    (fun a ha _ => (by decide : ∀ a ∈ wdemo.args, a.flag ≠ ['*']) a ha) _

example : parse wdemo [together ['c', 'b', 'a']] =
    .ok { wdemo with args := wdemo.args.map (flipped ['c', 'b', 'a']) } :=
  C50_effect wdemo_ok rfl (by decide) (by decide) (by decide) wdemo_switches (by decide)
    (fun a ha _ => (by decide : ∀ a ∈ wdemo.args, a.flag ≠ ['*']) a ha)

example : run ' ' wprog [together ['c', 'b', 'a'], ['-', 'n'], ['5']] =
    .ok [(.switch true, true), (.value 5, true), (.multiSwitch 1, true), (.switch true, true),
      (.switch false, false)] := by decide

end Demo

end Ecl.Props
