import Verif.Lemmas.CmdLineLabels

/-! Helper lemmas: sequences of options, and where the arguments that are set come from. -/
set_option autoImplicit false
set_option linter.unusedSimpArgs false
set_option linter.unusedVariables false

namespace Ecl.CmdLine
open Spec

variable {V : Type _}

/-- The argument after it received the values `vs`, in order. -/
def received (a : Arg V) (vs : List V) : Arg V :=
  if vs.isEmpty then a
  else { a with
    alreadySet := true
    slot := match a.slot with
      | .value w => .value (vs.getLastD w)
      | .multi us => .multi (us ++ vs)
      | s => s }

theorem foldl_setValue : ∀ (vs : List V) (a : Arg V), vs.foldl setValue a = received a vs
  | [], a => rfl
  | v :: vs, a => by
    rw [List.foldl_cons, foldl_setValue vs]
    unfold received setValue
    cases vs with
    | nil => cases hs : a.slot <;> simp [hs, List.getLastD]
    | cons w ws => cases hs : a.slot <;> simp [hs, List.getLastD]

theorem key_received (a : Arg V) (vs : List V) : key (received a vs) = key a := by
  unfold received
  split
  · rfl
  · unfold key; cases hs : a.slot <;> simp [kind]

theorem valuesFor_eq {x : Item V} {xs : List (Item V)} {id : Nat} (h : x.id = id) :
    valuesFor (x :: xs) id = x.value :: valuesFor xs id := by
  unfold valuesFor
  rw [List.filter_cons_of_pos (by simp [h])]
  rfl

theorem valuesFor_ne {x : Item V} {xs : List (Item V)} {id : Nat} (h : ¬x.id = id) :
    valuesFor (x :: xs) id = valuesFor xs id := by
  unfold valuesFor
  rw [List.filter_cons_of_neg (by simp [h])]

theorem key_ext {a a' : Arg V} (h : key a' = key a) : a'.ext = a.ext := congrArg Key.ext h
theorem key_constraint {a a' : Arg V} (h : key a' = key a) : a'.constraint = a.constraint :=
  congrArg Key.constraint h

theorem GoodLabel.congr {a a' : Arg V} (h : key a' = key a) {t : Str} (ht : GoodLabel a t) :
    GoodLabel a' t :=
  ⟨by rw [key_flag h, key_name h]; exact ht.labels, ht.blank, ht.nul, ht.name⟩

theorem GoodItem.map {args : List (Arg V)} {x : Item V} {a : Arg V} (hx : GoodItem args x a)
    (f : Arg V → Arg V) (hf : ∀ a ∈ args, key (f a) = key a) : GoodItem (args.map f) x (f a) := by
  have hk := hf a hx.mem
  refine ⟨List.mem_map.2 ⟨a, hx.mem, rfl⟩, ?_, ?_, ?_, hx.label.congr hk, ?_, ?_⟩
  · rw [key_id hk]; exact hx.id
  · rw [key_unlabeled hk]; exact hx.labeled
  · rw [key_kind hk]; exact hx.kind
  · rw [key_ext hk]; exact hx.ext
  · rw [key_constraint hk]; exact hx.constraint

theorem key_give {x : Item V} (a : Arg V) :
    key (if a.id = x.id then setValue a x.value else a) = key a := by
  split
  · exact key_setValue a _
  · rfl

def giveAll : List (Item V) → List (Arg V) → List (Arg V)
  | [], args => args
  | x :: xs, args => giveAll xs (give x args)

theorem giveAll_eq : ∀ (items : List (Item V)) (args : List (Arg V)),
    giveAll items args = args.map (fun a => received a (valuesFor items a.id))
  | [], args => by
    simp [giveAll, valuesFor, received]
  | x :: xs, args => by
    unfold giveAll
    rw [giveAll_eq xs, give, List.map_map]
    apply List.map_congr_left
    intro a ha
    simp only [Function.comp_apply]
    rw [key_id (key_give a)]
    by_cases h : a.id = x.id
    · have h1 : valuesFor (x :: xs) a.id = x.value :: valuesFor xs a.id := valuesFor_eq h.symm
      rw [h1, if_pos h, ← foldl_setValue, ← foldl_setValue, List.foldl_cons]
    · have h1 : valuesFor (x :: xs) a.id = valuesFor xs a.id :=
        valuesFor_ne (fun e => h e.symm)
      rw [h1, if_neg h]

theorem giveAll_stat : ∀ (items : List (Item V)) {args : List (Arg V)}, Stat args →
    Stat (giveAll items args)
  | [], args, h => h
  | x :: xs, args, h => giveAll_stat xs (give_stat h x)

/-- The items can be given one after the other. -/
structure Feasible (args : List (Arg V)) (items : List (Item V)) : Prop where
  good : ∀ x ∈ items, ∃ a, GoodItem args x a
  once : ∀ a ∈ args, kind a.slot = .value → (valuesFor items a.id).length ≤ 1
  unset : ∀ a ∈ args, kind a.slot = .value → valuesFor items a.id ≠ [] → a.alreadySet = false

theorem Feasible.tail {args : List (Arg V)} {x : Item V} {xs : List (Item V)}
    (h : Feasible args (x :: xs)) : Feasible (give x args) xs := by
  refine ⟨?_, ?_, ?_⟩
  · intro y hy
    obtain ⟨a, ha⟩ := h.good y (List.mem_cons_of_mem _ hy)
    exact ⟨_, ha.map _ (fun b _ => key_give b)⟩
  · simp only [give, List.forall_mem_map]
    intro a ha hk
    rw [key_kind (key_give a)] at hk
    rw [key_id (key_give a)]
    have := h.once a ha hk
    by_cases e : x.id = a.id
    · rw [valuesFor_eq e, List.length_cons] at this
      omega
    · rw [valuesFor_ne e] at this; exact this
  · simp only [give, List.forall_mem_map]
    intro a ha hk hv
    rw [key_kind (key_give a)] at hk
    rw [key_id (key_give a)] at hv
    by_cases e : a.id = x.id
    · exfalso
      have := h.once a ha hk
      rw [valuesFor_eq e.symm, List.length_cons] at this
      exact hv (List.length_eq_zero_iff.1 (by omega))
    · rw [if_neg e]
      apply h.unset a ha hk
      rw [valuesFor_ne (fun e' => e e'.symm)]; exact hv

theorem Feasible.head {args : List (Arg V)} {x : Item V} {xs : List (Item V)}
    (h : Feasible args (x :: xs)) {a : Arg V} (ha : GoodItem args x a)
    (hk : kind a.slot = .value) : a.alreadySet = false := by
  apply h.unset a ha.mem hk
  rw [valuesFor_eq ha.id.symm]; simp

theorem loop_items_spaced : ∀ (items : List (Item V)) (args : List (Arg V)), Stat args →
    Feasible args items → ∀ count : Nat,
    ∃ count', ∀ more : List Str, loop [] ' ' false (spaced items ++ more) args false count =
      loop [] ' ' false more (giveAll items args) false count'
  | [], args, hs, hf, count => ⟨count, fun _ => rfl⟩
  | x :: xs, args, hs, hf, count => by
    obtain ⟨a, ha⟩ := hf.good x (by simp)
    obtain ⟨c1, h1⟩ := loop_spaced hs ha (hf.head ha) count
    obtain ⟨c2, h2⟩ := loop_items_spaced xs (give x args) (give_stat hs x) hf.tail c1
    exact ⟨c2, fun more => (h1 _).trans (h2 more)⟩

/-- The extra conditions on an item written in one text. -/
structure Attachable (d : Char) (args : List (Arg V)) (x : Item V) : Prop where
  label : d ∉ x.label
  names : ∀ b ∈ args, d ∉ b.name
  blank : '*' ∉ d :: x.text
  nul : '\x00' ∉ d :: x.text
  text : x.text ≠ []
  switches : x.label.length ≤ 2 → ∀ b ∈ args, kind b.slot = .switch ∨ kind b.slot = .multiSwitch →
    ∀ f, b.flag = [f] → f ∉ d :: x.text

theorem Attachable.give {d : Char} {args : List (Arg V)} {x y : Item V} (h : Attachable d args y) :
    Attachable d (give x args) y := by
  refine ⟨h.label, ?_, h.blank, h.nul, h.text, ?_⟩
  · simp only [CmdLine.give, List.forall_mem_map]
    intro a ha
    rw [key_name (key_give a)]
    exact h.names a ha
  · simp only [CmdLine.give, List.forall_mem_map]
    intro hl a ha
    rw [key_kind (key_give a), key_flag (key_give a)]
    exact h.switches hl a ha

theorem loop_items_attached {d : Char} (hd : d ≠ ' ') :
    ∀ (items : List (Item V)) (args : List (Arg V)), Stat args →
    Feasible args items → (∀ x ∈ items, Attachable d args x) → ∀ count : Nat,
    ∃ count', ∀ more : List Str, loop [] d false (attached d items ++ more) args false count =
      loop [] d false more (giveAll items args) false count'
  | [], args, hs, hf, hat, count => ⟨count, fun _ => rfl⟩
  | x :: xs, args, hs, hf, hat, count => by
    obtain ⟨a, ha⟩ := hf.good x (by simp)
    have hx := hat x (by simp)
    have hb : '*' ∉ x.label ++ d :: x.text := by
      intro e
      rcases List.mem_append.1 e with e | e
      · exact ha.label.blank e
      · exact hx.blank e
    have hn : '\x00' ∉ x.label ++ d :: x.text := by
      intro e
      rcases List.mem_append.1 e with e | e
      · exact ha.label.nul e
      · exact hx.nul e
    obtain ⟨c1, h1⟩ := loop_attached hs hd hx.label hx.names hb hn hx.text hx.switches ha
      (hf.head ha) count
    obtain ⟨c2, h2⟩ := loop_items_attached hd xs (give x args) (give_stat hs x) hf.tail
      (fun y hy => (hat y (List.mem_cons_of_mem _ hy)).give) c1
    exact ⟨c2, fun more => (h1 _).trans (h2 more)⟩

/-- The end of a successful loop without exclusive groups. -/
theorem parse_end {c : T V} {n : Nat} (hc : DInv c n 0) (hx : c.xors = []) {argv : List Str}
    {args' : List (Arg V)} {ign : Bool} {count : Nat}
    (hl : loop c.xors c.delim false argv c.args c.ignoreRest 0 = .ok (args', ign, count)) :
    ((∀ a ∈ args', a.required = true → a.alreadySet = true) →
      parse c argv = .ok { c with args := args', ignoreRest := ign }) ∧
    ((∃ a ∈ args', a.required = true ∧ a.alreadySet = false) →
      parse c argv = .error (.fail .requiredMissing)) := by
  obtain ⟨hi, hw⟩ := inv_init false hc (by rw [hx]; exact List.Pairwise.nil)
    (by rw [hx]; intro a _ h; simp [inGroup] at h)
  obtain ⟨_, h2, h3⟩ := loop_count false argv false c.args c.ignoreRest 0 args' ign count
    (by simp) hi hw.symm hl
  have hnum := hc.num
  rw [hx] at hnum h2
  have e1 : c.args.countP (fun a => a.required && !inGroup [] a.id) =
      args'.countP (fun a => a.required) := by
    have : ∀ l : List (Arg V), l.countP (fun a => a.required && !inGroup [] a.id) =
        (l.map key).countP (fun k => k.required) := by
      intro l
      rw [List.countP_map]
      apply List.countP_congr
      intro a _
      simp [inGroup, key]
    rw [this, ← h3, ← this]
    apply List.countP_congr
    intro a _
    simp [inGroup]
  have e2 : count = args'.countP (fun a => a.required && a.alreadySet) := by
    rw [h2]
    unfold weight
    simp [counts, inGroup]
    apply List.countP_congr
    intro a _
    simp [counts, inGroup]
  rw [e1] at hnum
  have hnum : c.numRequired = args'.countP (fun a => a.required) := by simpa using hnum
  constructor
  · intro hall
    have : args'.countP (fun a => a.required && a.alreadySet) =
        args'.countP (fun a => a.required) := by
      apply List.countP_congr
      intro a ha
      constructor
      · intro h; simp at h; exact h.1
      · intro h; simp [h, hall a ha h]
    unfold parse
    rw [hl]
    simp only
    rw [e2, hnum, this]
    simp
  · rintro ⟨a, ha, hr, hs⟩
    have : args'.countP (fun a => a.required && a.alreadySet) <
        args'.countP (fun a => a.required) := by
      have aux : ∀ l : List (Arg V), a ∈ l →
          l.countP (fun a => a.required && a.alreadySet) < l.countP (fun a => a.required) := by
        intro l hl
        have hle : ∀ l : List (Arg V), l.countP (fun a => a.required && a.alreadySet) ≤
            l.countP (fun a => a.required) := by
          intro l
          apply List.countP_mono_left
          intro x _ h
          simp at h; exact h.1
        induction l with
        | nil => cases hl
        | cons x xs ih =>
          rcases List.mem_cons.1 hl with e | hl
          · subst e
            rw [List.countP_cons_of_neg (by simp [hs]), List.countP_cons_of_pos hr]
            exact Nat.lt_succ_of_le (hle xs)
          · have := ih hl
            rw [List.countP_cons, List.countP_cons]
            cases hxr : x.required <;> cases hxs : x.alreadySet <;>
              simp only [Bool.and_true, Bool.and_false, if_true, Bool.false_eq_true, if_false,
                Nat.add_zero] <;>
              (have heta : xs.countP (fun a => a.required) = xs.countP Arg.required := rfl) <;>
              omega
      exact aux args' ha
    unfold parse
    rw [hl]
    simp only
    rw [e2, hnum, if_pos this]

/-! ### Where set arguments come from -/

theorem loop_given {xors : List (List Nat)} {d : Char} :
    ∀ (toks : List Str) (skip : Bool) (args : List (Arg V)) (ign : Bool) (count : Nat)
      (args' : List (Arg V)) (ign' : Bool) (count' : Nat),
      args.Pairwise (fun a b => a.id ≠ b.id) → (∀ a ∈ args, Sane a ∧ a.flag.length ≤ 1) →
      loop xors d skip toks args ign count = .ok (args', ign', count') →
      ∀ a' ∈ args', isSet a' = true → a'.unlabeled = false →
        (kind a'.slot = .value ∨ kind a'.slot = .multi) →
        (∃ a ∈ args, key a = key a' ∧ isSet a = true) ∨
          ∃ t ∈ toks, Names d a'.flag a'.name t
  | [], skip, args, ign, count, args', ign', count', hid, hs, h => by
    unfold loop at h
    cases h
    intro a ha hset _ _
    exact .inl ⟨a, ha, rfl, hset⟩
  | tok :: toks, true, args, ign, count, args', ign', count', hid, hs, h => by
    unfold loop at h
    intro a' ha' hset hu hk
    rcases loop_given toks false args ign count args' ign' count' hid hs h a' ha' hset hu hk with
      h1 | ⟨t, ht, h1⟩
    · exact .inl h1
    · exact .inr ⟨t, List.mem_cons_of_mem _ ht, h1⟩
  | tok :: toks, false, args, ign, count, args', ign', count', hid, hs, h => by
    unfold loop at h
    split at h
    · cases h
    · rename_i r hr
      obtain ⟨f, hf, hcase⟩ := scan_spec false tok (by simp) args ign tok r (.inl rfl) hid hs hr
      have hkey : ∀ a ∈ args, key (f a) = key a := by
        rcases hcase with ⟨_, hp⟩ | ⟨a, ha, _, hhit, hp⟩
        · exact fun a ha => (hp a ha).key
        · intro b hb
          by_cases e : b.id = a.id
          · rw [eq_of_id hid hb ha e]; exact hhit.1
          · exact (hp b hb e).key
      have hid1 := ids_map f (fun a ha => key_id (hkey a ha)) hid
      have hs1 : ∀ a ∈ args.map f, Sane a ∧ a.flag.length ≤ 1 := by
        simp only [List.forall_mem_map]
        exact fun a ha => key_sane (hkey a ha) (hs a ha)
      -- what a set argument after the scan was before
      have hback : ∀ b ∈ args, isSet (f b) = true → b.unlabeled = false →
          (kind b.slot = .value ∨ kind b.slot = .multi) →
          isSet b = true ∨ Names d b.flag b.name tok := by
        intro b hb hset hu hk
        have hpass : Pass false b (f b) → isSet b = true := by
          intro hp
          rcases hp with e | ⟨hk', _⟩
          · rw [e] at hset; exact hset
          · rcases hk with h | h <;> rcases hk' with ⟨h', _⟩ | h' <;> rw [h] at h' <;> cases h'
        rcases hcase with ⟨_, hp⟩ | ⟨a, ha, _, hhit, hp⟩
        · exact .inl (hpass (hp b hb))
        · by_cases e : b.id = a.id
          · right
            rw [eq_of_id hid hb ha e] at hu hk ⊢
            have hm : argMatches a (trimFlag d tok).1 = true := by
              rcases hhit.2.2.2.2 with h | ⟨vs, v, h, _, h'⟩ | h | h
              · exact h.2.2 hu
              · exact h' hu
              · rcases hk with h' | h' <;> rw [h.1] at h' <;> cases h'
              · rcases hk with h' | h' <;> rw [h] at h' <;> cases h'
            refine ⟨(trimFlag d tok).1, ?_, trimFlag_fst⟩
            simp only [argMatches, flagStartString, nameStartString, Bool.or_eq_true,
              Bool.and_eq_true, decide_eq_true_eq, beq_iff_eq, List.cons_append,
              List.nil_append] at hm
            rcases hm with ⟨h1, h2⟩ | h1
            · exact .inl ⟨h2, of_decide_eq_true h1⟩
            · exact .inr (of_decide_eq_true h1)
          · exact .inl (hpass (hp b hb e))
      intro a' ha' hset hu hk
      have hfinish : ∀ b', b' ∈ args.map f → key b' = key a' → isSet b' = true →
          (∃ a ∈ args, key a = key a' ∧ isSet a = true) ∨
            ∃ t ∈ tok :: toks, Names d a'.flag a'.name t := by
        intro b' hb' hkb hsb
        obtain ⟨b, hb, rfl⟩ := List.mem_map.1 hb'
        have hkb' : key a' = key b := hkb.symm.trans (hkey b hb)
        rcases hback b hb hsb (by rw [← key_unlabeled hkb']; exact hu)
          (by rw [← key_kind hkb']; exact hk) with h1 | h1
        · exact .inl ⟨b, hb, hkb'.symm, h1⟩
        · refine .inr ⟨tok, by simp, ?_⟩
          rw [key_flag hkb', key_name hkb']; exact h1
      cases hhit : r.hit with
      | none =>
        rw [hhit] at h
        simp only at h
        rw [hf] at h
        have hrec : loop xors d false toks (args.map f) r.ign count = .ok (args', ign', count') := by
          split at h
          · exact h
          · split at h
            · exact h
            · cases h
        rcases loop_given toks false _ _ _ _ _ _ hid1 hs1 hrec a' ha' hset hu hk with
          ⟨b, hb, hkb, hsb⟩ | ⟨t, ht, h1⟩
        · exact hfinish b hb hkb hsb
        · exact .inr ⟨t, List.mem_cons_of_mem _ ht, h1⟩
      | some id =>
        rw [hhit] at h
        simp only at h
        rw [hf] at h
        have hck : ∃ g : Arg V → Arg V, (check xors (args.map f) id).1 = (args.map f).map g ∧
            (∀ b, key (g b) = key b) ∧ ∀ b, isSet (g b) = true → isSet b = true := by
          unfold check
          split
          · rename_i g _
            refine ⟨markGroup g id, rfl, ?_, ?_⟩
            · intro b
              unfold markGroup
              split
              · split <;> rfl
              · split <;> rfl
            · intro b
              unfold markGroup
              split
              · split
                · exact fun h => h
                · exact fun h => h
              · split
                · intro h; simp [isSet] at h
                · exact fun h => h
          · exact ⟨fun b => b, by simp, fun _ => rfl, fun _ h => h⟩
        obtain ⟨g, hg, hgk, hgs⟩ := hck
        rw [hg] at h
        have hid2 := ids_map g (fun a ha => key_id (hgk a)) hid1
        have hs2 : ∀ a ∈ (args.map f).map g, Sane a ∧ a.flag.length ≤ 1 := by
          intro a ha
          obtain ⟨b, hb, rfl⟩ := List.mem_map.1 ha
          exact key_sane (hgk b) (hs1 b hb)
        rcases loop_given toks r.skip _ _ _ _ _ _ hid2 hs2 h a' ha' hset hu hk with
          ⟨b, hb, hkb, hsb⟩ | ⟨t, ht, h1⟩
        · obtain ⟨b', hb', rfl⟩ := List.mem_map.1 hb
          exact hfinish b' hb' ((hgk b').symm.trans hkb) (hgs b' hsb)
        · exact .inr ⟨t, List.mem_cons_of_mem _ ht, h1⟩

end Ecl.CmdLine
