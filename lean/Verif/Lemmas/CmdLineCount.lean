import Verif.Lemmas.CmdLine

/-! Helper lemmas: how `requiredCount` relates to the arguments that are set. -/
set_option autoImplicit false
set_option linter.unusedSimpArgs false
set_option linter.unusedVariables false

namespace Ecl.CmdLine

variable {V : Type _}

def inGroup (xors : List (List Nat)) (id : Nat) : Bool := xors.any (fun g => decide (id ∈ g))

theorem inGroup_iff {xors : List (List Nat)} {id : Nat} :
    inGroup xors id = true ↔ ∃ g ∈ xors, id ∈ g := by
  simp [inGroup]

/-- What is preserved by parsing.  With `sw = true` exclusive groups may contain switches (and the
texts parsed must be `Simple`). -/
structure Inv (xors : List (List Nat)) (sw : Bool) (args : List (Arg V)) : Prop where
  ids : args.Pairwise (fun a b => a.id ≠ b.id)
  disj : xors.Pairwise (fun g h => ∀ x ∈ g, x ∉ h)
  sane : ∀ a ∈ args, Sane a ∧ a.flag.length ≤ 1
  xset : ∀ a ∈ args, a.xorSet = true → a.alreadySet = true ∧ inGroup xors a.id = true
  req : ∀ a ∈ args, a.required = true → inGroup xors a.id = false →
    kind a.slot = .value ∨ kind a.slot = .multi
  grp : ∀ a ∈ args, inGroup xors a.id = true →
    kind a.slot = .value ∨ (sw = true ∧ kind a.slot = .switch)
  mul : ∀ a ∈ args, ∀ vs, a.slot = .multi vs → a.alreadySet = !vs.isEmpty
  excl : ∀ g ∈ xors, ∀ a ∈ args, ∀ b ∈ args, a.id ∈ g → b.id ∈ g → a.id ≠ b.id → isSet a = true →
    b.alreadySet = true ∧ b.xorSet = true

/-- A required argument outside of all groups that is set. -/
def counts (xors : List (List Nat)) (a : Arg V) : Bool :=
  a.required && !inGroup xors a.id && a.alreadySet

/-- Some member of the group is set. -/
def groupSet (args : List (Arg V)) (g : List Nat) : Bool :=
  args.any (fun a => decide (a.id ∈ g) && isSet a)

def weight (xors : List (List Nat)) (args : List (Arg V)) : Nat :=
  args.countP (counts xors) + (xors.map (fun g => if groupSet args g then g.length else 0)).sum

theorem eq_of_id {args : List (Arg V)} (h : args.Pairwise (fun a b => a.id ≠ b.id)) {a b : Arg V}
    (ha : a ∈ args) (hb : b ∈ args) (e : a.id = b.id) : a = b := by
  induction args with
  | nil => cases ha
  | cons x xs ih =>
    obtain ⟨h1, h2⟩ := List.pairwise_cons.1 h
    rcases List.mem_cons.1 ha with ha | ha <;> rcases List.mem_cons.1 hb with hb | hb
    · rw [ha, hb]
    · exact absurd e (ha ▸ h1 b hb)
    · exact absurd e.symm (hb ▸ h1 a ha)
    · exact ih h2 ha hb

theorem ids_map {args : List (Arg V)} (f : Arg V → Arg V) (hf : ∀ a ∈ args, (f a).id = a.id)
    (h : args.Pairwise (fun a b => a.id ≠ b.id)) :
    (args.map f).Pairwise (fun a b => a.id ≠ b.id) := by
  rw [List.pairwise_map]
  refine List.Pairwise.imp_of_mem ?_ h
  intro a b ha hb hab
  rw [hf a ha, hf b hb]; exact hab

theorem countP_map_eq {args : List (Arg V)} {P : Arg V → Bool} (f : Arg V → Arg V)
    (h : ∀ a ∈ args, P (f a) = P a) : (args.map f).countP P = args.countP P := by
  rw [List.countP_map]
  apply List.countP_congr
  intro a ha
  simp [h a ha]

theorem countP_map_one {P : Arg V → Bool} (f : Arg V → Arg V) {a : Arg V} :
    ∀ {args : List (Arg V)}, args.Pairwise (fun a b => a.id ≠ b.id) → a ∈ args →
      (∀ b ∈ args, b.id ≠ a.id → P (f b) = P b) → P a = false → P (f a) = true →
      (args.map f).countP P = args.countP P + 1
  | x :: xs, hid, ha, h, h0, h1 => by
    obtain ⟨hx, hxs⟩ := List.pairwise_cons.1 hid
    rcases List.mem_cons.1 ha with rfl | ha
    · rw [List.map_cons, List.countP_cons_of_pos h1, List.countP_cons_of_neg (by simp [h0]),
        countP_map_eq f]
      intro b hb
      exact h b (List.mem_cons_of_mem _ hb) (fun e => hx b hb e.symm)
    · have ih := countP_map_one f hxs ha (fun b hb => h b (List.mem_cons_of_mem _ hb)) h0 h1
      have hxe := h x (by simp) (hx a ha)
      rw [List.map_cons, List.countP_cons, List.countP_cons, hxe, ih]
      omega

theorem sum_find {id : Nat} {F F' : List Nat → Nat} {g : List Nat} :
    ∀ {xors : List (List Nat)}, xors.Pairwise (fun g h => ∀ x ∈ g, x ∉ h) →
      xors.find? (fun g => decide (id ∈ g)) = some g →
      (∀ h ∈ xors, id ∉ h → F' h = F h) → F' g = F g + g.length →
      (xors.map F').sum = (xors.map F).sum + g.length
  | [], _, hf, _, _ => by simp at hf
  | x :: xs, hd, hf, h1, h2 => by
    obtain ⟨hx, hxs⟩ := List.pairwise_cons.1 hd
    by_cases hi : id ∈ x
    · have : x = g := by simpa [List.find?_cons, hi] using hf
      subst this
      have hrest : xs.map F' = xs.map F := by
        apply List.map_congr_left
        intro h hh
        exact h1 h (List.mem_cons_of_mem _ hh) (hx h hh id hi)
      simp only [List.map_cons, List.sum_cons, hrest, h2]
      omega
    · have hf' : xs.find? (fun g => decide (id ∈ g)) = some g := by
        simpa [List.find?_cons, hi] using hf
      have ih := sum_find hxs hf' (fun h hh => h1 h (List.mem_cons_of_mem _ hh)) h2
      simp only [List.map_cons, List.sum_cons, ih, h1 x (by simp) hi]
      omega

theorem key_id {a a' : Arg V} (h : key a' = key a) : a'.id = a.id := congrArg Key.id h
theorem key_req {a a' : Arg V} (h : key a' = key a) : a'.required = a.required :=
  congrArg Key.required h
theorem key_kind {a a' : Arg V} (h : key a' = key a) : kind a'.slot = kind a.slot :=
  congrArg Key.kind h
theorem key_flag {a a' : Arg V} (h : key a' = key a) : a'.flag = a.flag := congrArg Key.flag h
theorem key_name {a a' : Arg V} (h : key a' = key a) : a'.name = a.name := congrArg Key.name h
theorem key_unlabeled {a a' : Arg V} (h : key a' = key a) : a'.unlabeled = a.unlabeled :=
  congrArg Key.unlabeled h

theorem key_sane {a a' : Arg V} (h : key a' = key a) (hs : Sane a ∧ a.flag.length ≤ 1) :
    Sane a' ∧ a'.flag.length ≤ 1 := by
  refine ⟨?_, by rw [key_flag h]; exact hs.2⟩
  intro hu
  rw [key_unlabeled h] at hu
  rw [key_kind h]
  exact hs.1 hu

theorem kind_multi {s : Slot V} (h : kind s = .multi) : ∃ vs, s = .multi vs := by
  cases s <;> simp [kind] at h
  exact ⟨_, rfl⟩

theorem pass_group {xors : List (List Nat)} {sw : Bool} {args : List (Arg V)}
    (hi : Inv xors sw args) {a a' : Arg V} (ha : a ∈ args) (hg : inGroup xors a.id = true)
    (h : Pass sw a a') : a' = a := by
  rcases h with rfl | ⟨hk, _⟩
  · rfl
  · rcases hi.grp a ha hg with h1 | ⟨h1, h2⟩ <;> rcases hk with ⟨h3, h4⟩ | h3
    · rw [h1] at h3; cases h3
    · rw [h1] at h3; cases h3
    · rw [h1] at h4; cases h4
    · rw [h2] at h3; cases h3

theorem pass_counts {xors : List (List Nat)} {sw : Bool} {args : List (Arg V)}
    (hi : Inv xors sw args) {a a' : Arg V} (ha : a ∈ args)
    (h : Pass sw a a') : counts xors a' = counts xors a := by
  rcases h with rfl | ⟨hk, hkey, hs, _⟩
  · rfl
  · have hn : (a.required && !inGroup xors a.id) = false := by
      cases hr : a.required
      · simp
      · cases hg : inGroup xors a.id
        · exfalso
          rcases hi.req a ha hr hg with h1 | h1 <;> rcases hk with ⟨h3, h4⟩ | h3 <;>
            rw [h1] at h3 <;> cases h3
        · simp
    simp [counts, key_id hkey, key_req hkey, hn]

/-- Steps of the inner loop that match nothing. -/
theorem pass_multi {sw : Bool} {a a' : Arg V} (h : Pass sw a a') {vs : List V}
    (hs : a'.slot = .multi vs) : a' = a := by
  rcases h with rfl | ⟨hk, hkey, _⟩
  · rfl
  · have h1 := key_kind hkey
    rw [hs] at h1
    rcases hk with ⟨h3, h4⟩ | h3 <;> rw [h3] at h1 <;> cases h1

theorem pass_xorSet {sw : Bool} {a a' : Arg V} (h : Pass sw a a') : a'.xorSet = a.xorSet := by
  rcases h with rfl | ⟨_, _, _, h, _⟩
  · rfl
  · exact h

theorem inv_pass {xors : List (List Nat)} {sw : Bool} {args : List (Arg V)}
    (hi : Inv xors sw args) (f : Arg V → Arg V) (hf : ∀ a ∈ args, Pass sw a (f a)) :
    Inv xors sw (args.map f) ∧ weight xors (args.map f) = weight xors args := by
  have hkey : ∀ a ∈ args, key (f a) = key a := fun a ha => (hf a ha).key
  have hgrp : ∀ a ∈ args, inGroup xors a.id = true → f a = a :=
    fun a ha hg => pass_group hi ha hg (hf a ha)
  refine ⟨⟨ids_map f (fun a ha => key_id (hkey a ha)) hi.ids, hi.disj, ?_, ?_, ?_, ?_, ?_, ?_⟩, ?_⟩
  · simp only [List.forall_mem_map]
    exact fun a ha => key_sane (hkey a ha) (hi.sane a ha)
  · simp only [List.forall_mem_map]
    intro a ha hx
    rw [pass_xorSet (hf a ha)] at hx
    have h1 := hi.xset a ha hx
    rw [hgrp a ha h1.2]; exact h1
  · simp only [List.forall_mem_map]
    intro a ha hr hg
    rw [key_req (hkey a ha)] at hr
    rw [key_id (hkey a ha)] at hg
    rw [key_kind (hkey a ha)]
    exact hi.req a ha hr hg
  · simp only [List.forall_mem_map]
    intro a ha hg
    rw [key_id (hkey a ha)] at hg
    rw [key_kind (hkey a ha)]
    exact hi.grp a ha hg
  · simp only [List.forall_mem_map]
    intro a ha vs hs
    have h1 := pass_multi (hf a ha) hs
    rw [h1] at hs ⊢
    exact hi.mul a ha vs hs
  · simp only [List.forall_mem_map]
    intro g hg a ha b hb hag hbg hne hset
    rw [key_id (hkey a ha)] at hag hne
    rw [key_id (hkey b hb)] at hbg hne
    have ha' := hgrp a ha (inGroup_iff.2 ⟨g, hg, hag⟩)
    have hb' := hgrp b hb (inGroup_iff.2 ⟨g, hg, hbg⟩)
    rw [ha'] at hset
    rw [hb']
    exact hi.excl g hg a ha b hb hag hbg hne hset
  · unfold weight
    rw [countP_map_eq f (fun a ha => pass_counts hi ha (hf a ha))]
    congr 2
    apply List.map_congr_left
    intro g hg
    have : groupSet (args.map f) g = groupSet args g := by
      unfold groupSet
      rw [List.any_map]
      rw [Bool.eq_iff_iff]
      simp only [List.any_eq_true, Function.comp_apply, Bool.and_eq_true, decide_eq_true_eq]
      constructor
      · rintro ⟨a, ha, h1, h2⟩
        rw [key_id (hkey a ha)] at h1
        rw [hgrp a ha (inGroup_iff.2 ⟨g, hg, h1⟩)] at h2
        exact ⟨a, ha, h1, h2⟩
      · rintro ⟨a, ha, h1, h2⟩
        refine ⟨a, ha, ?_⟩
        rw [hgrp a ha (inGroup_iff.2 ⟨g, hg, h1⟩)]
        exact ⟨h1, h2⟩
    rw [this]

theorem any_id {args : List (Arg V)} (hid : args.Pairwise (fun a b => a.id ≠ b.id)) {a : Arg V}
    (ha : a ∈ args) (Q : Arg V → Bool) :
    args.any (fun b => decide (b.id = a.id) && Q b) = Q a := by
  rw [Bool.eq_iff_iff]
  simp only [List.any_eq_true, Bool.and_eq_true, decide_eq_true_eq]
  constructor
  · rintro ⟨b, hb, h1, h2⟩
    rw [eq_of_id hid hb ha h1] at h2; exact h2
  · intro h; exact ⟨a, ha, rfl, h⟩

theorem kind_isMulti {a : Arg V} : isMulti a = decide (kind a.slot = .multi) := by
  unfold isMulti
  cases a.slot <;> simp [kind]

/-- A step of the inner loop that matched, followed by the exclusive-group check. -/
theorem inv_hit {xors : List (List Nat)} {sw : Bool} {args : List (Arg V)} {d : Char} {tok : Str}
    (hi : Inv xors sw args) (f : Arg V → Arg V) {a : Arg V} (ha : a ∈ args)
    (hhit : Hit d tok a (f a)) (hf : ∀ b ∈ args, b.id ≠ a.id → Pass sw b (f b)) :
    Inv xors sw (check xors (args.map f) a.id).1 ∧
      weight xors (check xors (args.map f) a.id).1 =
        weight xors args + (check xors (args.map f) a.id).2 := by
  have hkey : ∀ b ∈ args, key (f b) = key b := by
    intro b hb
    by_cases h : b.id = a.id
    · rw [eq_of_id hi.ids hb ha h]; exact hhit.1
    · exact (hf b hb h).key
  have hid' := ids_map f (fun b hb => key_id (hkey b hb)) hi.ids
  have hfa : f a ∈ args.map f := List.mem_map.2 ⟨a, ha, rfl⟩
  have hida : (f a).id = a.id := key_id hhit.1
  unfold check
  cases hfind : xors.find? (fun g => decide (a.id ∈ g)) with
  | some g =>
    have hg : g ∈ xors := List.mem_of_find?_eq_some hfind
    have hag : a.id ∈ g := by simpa using List.find?_some hfind
    have hain : inGroup xors a.id = true := inGroup_iff.2 ⟨g, hg, hag⟩
    have hnotset : a.alreadySet = false := by
      rcases hi.grp a ha hain with hk | ⟨_, hk⟩ <;>
        rcases hhit.2.2.2.2 with h | ⟨vs, v, h, _⟩ | h | h
      · exact h.2.1
      · rw [h] at hk; cases hk
      · exact h.2
      · rw [hk] at h; cases h
      · exact h.2.1
      · rw [h] at hk; cases hk
      · exact h.2
      · rw [hk] at h; cases h
    have hnm : isMulti (f a) = false := by
      rw [kind_isMulti, key_kind hhit.1]
      rcases hi.grp a ha hain with hk | ⟨_, hk⟩ <;> rw [hk] <;> rfl
    have hxa : a.xorSet = false := by
      cases h : a.xorSet
      · rfl
      · have := (hi.xset a ha h).1
        rw [hnotset] at this; cases this
    have hseta : isSet (f a) = true := by
      simp [isSet, hhit.2.1, hhit.2.2.1, hxa]
    -- the composed update
    have hmm : (args.map f).map (markGroup g a.id) = args.map (fun b => markGroup g a.id (f b)) := by
      rw [List.map_map]; rfl
    have hself : markGroup g a.id (f a) = f a := by
      unfold markGroup; simp [hida, hnm]
    have hother : ∀ b ∈ args, b.id ≠ a.id → b.id ∈ g →
        markGroup g a.id (f b) = { b with alreadySet := true, xorSet := true } := by
      intro b hb hne hbg
      have hb' := pass_group hi hb (inGroup_iff.2 ⟨g, hg, hbg⟩) (hf b hb hne)
      rw [hb']
      unfold markGroup
      simp [hne, hbg]
    have hout : ∀ b ∈ args, b.id ∉ g → markGroup g a.id (f b) = f b := by
      intro b hb hbg
      have hne : b.id ≠ a.id := fun e => hbg (e ▸ hag)
      unfold markGroup
      rw [key_id (hkey b hb), if_neg hne, if_neg hbg]
    have hkey2 : ∀ b ∈ args, key (markGroup g a.id (f b)) = key b := by
      intro b hb
      by_cases hne : b.id = a.id
      · rw [eq_of_id hi.ids hb ha hne, hself]; exact hhit.1
      · by_cases hbg : b.id ∈ g
        · rw [hother b hb hne hbg]; rfl
        · rw [hout b hb hbg]; exact hkey b hb
    have hany : (args.map f).any (fun b => decide (b.id = a.id) && isMulti b && b.allowMore)
        = false := by
      have h1 := any_id hid' hfa (fun b => isMulti b && b.allowMore)
      rw [hida] at h1
      simp only [Bool.and_assoc]
      rw [h1, hnm]; rfl
    simp only [hany]
    rw [hmm]
    have hgroups : ∀ h ∈ xors, a.id ∉ h → ∀ b ∈ args, b.id ∈ h → b.id ∉ g := by
      intro h hh hah b hb hbh hbg
      have hne : h ≠ g := fun e => hah (e ▸ hag)
      have key' : ∀ {l : List (List Nat)}, l.Pairwise (fun g h => ∀ x ∈ g, x ∉ h) → h ∈ l → g ∈ l →
          False := by
        intro l hl h1 h2
        induction l with
        | nil => cases h1
        | cons x xs ih =>
          obtain ⟨hx, hxs⟩ := List.pairwise_cons.1 hl
          rcases List.mem_cons.1 h1 with e | h1 <;> rcases List.mem_cons.1 h2 with e' | h2
          · exact hne (e.trans e'.symm)
          · exact hx g h2 b.id (e ▸ hbh) hbg
          · exact hx h h1 b.id (e' ▸ hbg) hbh
          · exact ih hxs h1 h2
      exact key' hi.disj hh hg
    refine ⟨⟨ids_map _ (fun b hb => key_id (hkey2 b hb)) hi.ids, hi.disj, ?_, ?_, ?_, ?_, ?_, ?_⟩, ?_⟩
    · simp only [List.forall_mem_map]
      exact fun b hb => key_sane (hkey2 b hb) (hi.sane b hb)
    · simp only [List.forall_mem_map]
      intro b hb hx
      rw [key_id (hkey2 b hb)]
      by_cases hne : b.id = a.id
      · rw [eq_of_id hi.ids hb ha hne, hself] at hx
        rw [hhit.2.2.1, hxa] at hx; cases hx
      · by_cases hbg : b.id ∈ g
        · rw [hother b hb hne hbg]
          exact ⟨rfl, inGroup_iff.2 ⟨g, hg, hbg⟩⟩
        · rw [hout b hb hbg] at hx ⊢
          rw [pass_xorSet (hf b hb hne)] at hx
          have h1 := hi.xset b hb hx
          refine ⟨?_, h1.2⟩
          rw [pass_group hi hb h1.2 (hf b hb hne)]; exact h1.1
    · simp only [List.forall_mem_map]
      intro b hb hr hg'
      rw [key_req (hkey2 b hb)] at hr
      rw [key_id (hkey2 b hb)] at hg'
      rw [key_kind (hkey2 b hb)]
      exact hi.req b hb hr hg'
    · simp only [List.forall_mem_map]
      intro b hb hg'
      rw [key_id (hkey2 b hb)] at hg'
      rw [key_kind (hkey2 b hb)]
      exact hi.grp b hb hg'
    · simp only [List.forall_mem_map]
      intro b hb vs hs
      have hkb : kind b.slot = .multi := by
        rw [← key_kind (hkey2 b hb), hs]; rfl
      have hbg : b.id ∉ g := by
        intro hbg
        rcases hi.grp b hb (inGroup_iff.2 ⟨g, hg, hbg⟩) with h | ⟨_, h⟩ <;> rw [hkb] at h <;> cases h
      have hne : b.id ≠ a.id := fun e => hbg (e ▸ hag)
      rw [hout b hb hbg] at hs ⊢
      have h1 := pass_multi (hf b hb hne) hs
      rw [h1] at hs ⊢
      exact hi.mul b hb vs hs
    · simp only [List.forall_mem_map]
      intro h hh b hb c hc hbh hch hne hset
      rw [key_id (hkey2 b hb)] at hbh hne
      rw [key_id (hkey2 c hc)] at hch hne
      by_cases hah : a.id ∈ h
      · -- the group of `a`
        have hhg : h = g := by
          refine Classical.byContradiction fun hn => ?_
          have key' : ∀ {l : List (List Nat)}, l.Pairwise (fun g h => ∀ x ∈ g, x ∉ h) → h ∈ l →
              g ∈ l → False := by
            intro l hl h1 h2
            induction l with
            | nil => cases h1
            | cons x xs ih =>
              obtain ⟨hx, hxs⟩ := List.pairwise_cons.1 hl
              rcases List.mem_cons.1 h1 with e | h1 <;> rcases List.mem_cons.1 h2 with e' | h2
              · exact hn (e.trans e'.symm)
              · exact hx g h2 a.id (e ▸ hah) hag
              · exact hx h h1 a.id (e' ▸ hag) hah
              · exact ih hxs h1 h2
          exact key' hi.disj hh hg
        subst hhg
        by_cases hba : b.id = a.id
        · have hca : c.id ≠ a.id := fun e => hne (hba.trans e.symm)
          rw [hother c hc hca hch]
          exact ⟨rfl, rfl⟩
        · rw [hother b hb hba hbh] at hset
          simp [isSet] at hset
      · have hb1 := hout b hb (hgroups h hh hah b hb hbh)
        have hc1 := hout c hc (hgroups h hh hah c hc hch)
        have hba : b.id ≠ a.id := fun e => hah (e ▸ hbh)
        have hca : c.id ≠ a.id := fun e => hah (e ▸ hch)
        have hb2 := pass_group hi hb (inGroup_iff.2 ⟨h, hh, hbh⟩) (hf b hb hba)
        have hc2 := pass_group hi hc (inGroup_iff.2 ⟨h, hh, hch⟩) (hf c hc hca)
        rw [hb1, hb2] at hset
        rw [hc1, hc2]
        exact hi.excl h hh b hb c hc hbh hch hne hset
    · unfold weight
      have hc : (args.map (fun b => markGroup g a.id (f b))).countP (counts xors)
          = args.countP (counts xors) := by
        apply countP_map_eq
        intro b hb
        by_cases hbg : b.id ∈ g
        · have : inGroup xors b.id = true := inGroup_iff.2 ⟨g, hg, hbg⟩
          simp [counts, key_id (hkey2 b hb), this]
        · have hne : b.id ≠ a.id := fun e => hbg (e ▸ hag)
          rw [hout b hb hbg]
          exact pass_counts hi hb (hf b hb hne)
      rw [hc, Nat.add_assoc]
      congr 1
      apply sum_find hi.disj hfind
      · intro h hh hah
        have : groupSet (args.map (fun b => markGroup g a.id (f b))) h = groupSet args h := by
          unfold groupSet
          rw [List.any_map, Bool.eq_iff_iff]
          simp only [List.any_eq_true, Function.comp_apply, Bool.and_eq_true, decide_eq_true_eq]
          have hsame : ∀ b ∈ args, b.id ∈ h → markGroup g a.id (f b) = b := by
            intro b hb hbh
            rw [hout b hb (hgroups h hh hah b hb hbh)]
            exact pass_group hi hb (inGroup_iff.2 ⟨h, hh, hbh⟩) (hf b hb (fun e => hah (e ▸ hbh)))
          constructor
          · rintro ⟨b, hb, h1, h2⟩
            rw [key_id (hkey2 b hb)] at h1
            rw [hsame b hb h1] at h2
            exact ⟨b, hb, h1, h2⟩
          · rintro ⟨b, hb, h1, h2⟩
            exact ⟨b, hb, by rw [hsame b hb h1]; exact ⟨h1, h2⟩⟩
        simp only [this]
      · have h0 : groupSet args g = false := by
          cases h : groupSet args g
          · rfl
          · exfalso
            unfold groupSet at h
            simp only [List.any_eq_true, Bool.and_eq_true, decide_eq_true_eq] at h
            obtain ⟨b, hb, h1, h2⟩ := h
            by_cases hba : b.id = a.id
            · rw [eq_of_id hi.ids hb ha hba] at h2
              simp [isSet, hnotset] at h2
            · have := (hi.excl g hg b hb a ha h1 hag hba h2).1
              rw [hnotset] at this; cases this
        have h1 : groupSet (args.map (fun b => markGroup g a.id (f b))) g = true := by
          unfold groupSet
          simp only [List.any_map, List.any_eq_true, Function.comp_apply, Bool.and_eq_true,
            decide_eq_true_eq]
          exact ⟨a, ha, by rw [hself, hida]; exact ⟨hag, hseta⟩⟩
        simp [h0, h1]
  | none =>
    have hng : inGroup xors a.id = false := by
      rw [List.find?_eq_none] at hfind
      cases h : inGroup xors a.id
      · rfl
      · obtain ⟨g, hg, h1⟩ := inGroup_iff.1 h
        exact absurd (by simpa using h1) (hfind g hg)
    have hgrp : ∀ b ∈ args, inGroup xors b.id = true → f b = b := by
      intro b hb hg
      refine pass_group hi hb hg (hf b hb ?_)
      intro e; rw [e, hng] at hg; cases hg
    have hx : ∀ b ∈ args, (f b).xorSet = b.xorSet := by
      intro b hb
      by_cases h : b.id = a.id
      · rw [eq_of_id hi.ids hb ha h]; exact hhit.2.2.1
      · exact pass_xorSet (hf b hb h)
    have hany : (args.map f).any (fun b => decide (b.id = a.id) && isRequired b)
        = isRequired (f a) := by
      have h1 := any_id hid' hfa isRequired
      rw [hida] at h1; exact h1
    simp only [hany]
    refine ⟨⟨hid', hi.disj, ?_, ?_, ?_, ?_, ?_, ?_⟩, ?_⟩
    · simp only [List.forall_mem_map]
      exact fun b hb => key_sane (hkey b hb) (hi.sane b hb)
    · simp only [List.forall_mem_map]
      intro b hb h
      rw [hx b hb] at h
      have h1 := hi.xset b hb h
      rw [hgrp b hb h1.2]; exact h1
    · simp only [List.forall_mem_map]
      intro b hb hr hg
      rw [key_req (hkey b hb)] at hr
      rw [key_id (hkey b hb)] at hg
      rw [key_kind (hkey b hb)]
      exact hi.req b hb hr hg
    · simp only [List.forall_mem_map]
      intro b hb hg
      rw [key_id (hkey b hb)] at hg
      rw [key_kind (hkey b hb)]
      exact hi.grp b hb hg
    · simp only [List.forall_mem_map]
      intro b hb vs hs
      by_cases h : b.id = a.id
      · rw [eq_of_id hi.ids hb ha h] at hs ⊢
        rw [hhit.2.1]
        have hka : kind a.slot = .multi := by rw [← key_kind hhit.1, hs]; rfl
        rcases hhit.2.2.2.2 with h | ⟨us, v, h, h', _⟩ | h | h
        · rw [hka] at h; cases h.1
        · rw [h'] at hs
          cases hs
          simp
        · rw [hka] at h; cases h.1
        · rw [hka] at h; cases h
      · have h1 := pass_multi (hf b hb h) hs
        rw [h1] at hs ⊢
        exact hi.mul b hb vs hs
    · simp only [List.forall_mem_map]
      intro g hg b hb c hc hbg hcg hne hset
      rw [key_id (hkey b hb)] at hbg hne
      rw [key_id (hkey c hc)] at hcg hne
      rw [hgrp b hb (inGroup_iff.2 ⟨g, hg, hbg⟩)] at hset
      rw [hgrp c hc (inGroup_iff.2 ⟨g, hg, hcg⟩)]
      exact hi.excl g hg b hb c hc hbg hcg hne hset
    · have hG : xors.map (fun g => if groupSet (args.map f) g then g.length else 0)
          = xors.map (fun g => if groupSet args g then g.length else 0) := by
        apply List.map_congr_left
        intro g hg
        have : groupSet (args.map f) g = groupSet args g := by
          unfold groupSet
          rw [List.any_map, Bool.eq_iff_iff]
          simp only [List.any_eq_true, Function.comp_apply, Bool.and_eq_true, decide_eq_true_eq]
          constructor
          · rintro ⟨b, hb, h1, h2⟩
            rw [key_id (hkey b hb)] at h1
            rw [hgrp b hb (inGroup_iff.2 ⟨g, hg, h1⟩)] at h2
            exact ⟨b, hb, h1, h2⟩
          · rintro ⟨b, hb, h1, h2⟩
            exact ⟨b, hb, by rw [hgrp b hb (inGroup_iff.2 ⟨g, hg, h1⟩)]; exact ⟨h1, h2⟩⟩
        simp only [this]
      unfold weight
      rw [hG]
      have hrest : ∀ b ∈ args, b.id ≠ a.id → counts xors (f b) = counts xors b :=
        fun b hb h => pass_counts hi hb (hf b hb h)
      have hfc : counts xors (f a) = a.required := by
        simp [counts, key_req hhit.1, hida, hng, hhit.2.1]
      have hac : counts xors a = (a.required && a.alreadySet) := by
        simp [counts, hng]
      by_cases hc : counts xors a = counts xors (f a)
      · have : (args.map f).countP (counts xors) = args.countP (counts xors) := by
          apply countP_map_eq
          intro b hb
          by_cases h : b.id = a.id
          · rw [eq_of_id hi.ids hb ha h]; exact hc.symm
          · exact hrest b hb h
        rw [this]
        have hreq : isRequired (f a) = false := by
          rw [hfc, hac] at hc
          unfold isRequired
          rw [key_req hhit.1]
          cases hr : a.required
          · cases (f a).slot <;> simp
          · have hal : a.alreadySet = true := by simpa [hr] using hc
            rcases hhit.2.2.2.2 with h | ⟨us, v, h, h', _⟩ | h | h
            · rw [hal] at h; cases h.2.1
            · rw [h']
              have := hi.mul a ha us h
              rw [hal] at this
              cases us with
              | nil => simp at this
              | cons u us => simp
            · rw [hal] at h; cases h.2
            · rcases hi.req a ha hr hng with h1 | h1 <;> rw [h] at h1 <;> cases h1
        simp [hreq]
      · have hr : a.required = true := by
          cases hr : a.required
          · rw [hfc, hac, hr] at hc; simp at hc
          · rfl
        have hal : a.alreadySet = false := by
          cases hal : a.alreadySet
          · rfl
          · rw [hfc, hac, hr, hal] at hc; simp at hc
        have : (args.map f).countP (counts xors) = args.countP (counts xors) + 1 :=
          countP_map_one f hi.ids ha hrest (by rw [hac, hal]; simp) (by rw [hfc, hr])
        rw [this]
        have hreq : isRequired (f a) = true := by
          unfold isRequired
          rw [key_req hhit.1, hr]
          split
          · rename_i vs hs
            have hka : kind a.slot = .multi := by rw [← key_kind hhit.1, hs]; rfl
            rcases hhit.2.2.2.2 with h | ⟨us, v, h, h', _⟩ | h | h
            · rw [hka] at h; cases h.1
            · rw [h'] at hs
              cases hs
              have := hi.mul a ha us h
              rw [hal] at this
              cases us with
              | nil => simp
              | cons u us => simp at this
            · rw [hka] at h; cases h.1
            · rw [hka] at h; cases h
          · rfl
        simp only [hreq, if_true]
        omega

/-- The outer loop keeps `requiredCount` equal to the weight of what is set. -/
theorem loop_count {xors : List (List Nat)} {d : Char} (sw : Bool) :
    ∀ (toks : List Str) (skip : Bool) (args : List (Arg V)) (ign : Bool) (count : Nat)
      (args' : List (Arg V)) (ign' : Bool) (count' : Nat),
      (sw = true → ∀ t ∈ toks, Simple t) → Inv xors sw args → count = weight xors args →
      loop xors d skip toks args ign count = .ok (args', ign', count') →
      Inv xors sw args' ∧ count' = weight xors args' ∧ args'.map key = args.map key
  | [], skip, args, ign, count, args', ign', count', hs, hi, hc, h => by
    unfold loop at h
    cases h
    exact ⟨hi, hc, rfl⟩
  | tok :: toks, true, args, ign, count, args', ign', count', hs, hi, hc, h => by
    unfold loop at h
    exact loop_count sw toks false args ign count args' ign' count'
      (fun e t ht => hs e t (List.mem_cons_of_mem _ ht)) hi hc h
  | tok :: toks, false, args, ign, count, args', ign', count', hs, hi, hc, h => by
    unfold loop at h
    have hs' : sw = true → ∀ t ∈ toks, Simple t := fun e t ht => hs e t (List.mem_cons_of_mem _ ht)
    split at h
    · cases h
    · rename_i r hr
      obtain ⟨f, hf, hcase⟩ := scan_spec sw tok (fun e => hs e tok (by simp)) args ign tok r
        (.inl rfl) hi.ids hi.sane hr
      have hkeys : (∀ a ∈ args, key (f a) = key a) → (args.map f).map key = args.map key := by
        intro hk
        rw [List.map_map]
        exact List.map_congr_left hk
      rcases hcase with ⟨hn, hp⟩ | ⟨a, ha, hh, hhit, hp⟩
      · rw [hn] at h
        simp only at h
        obtain ⟨i1, i2⟩ := inv_pass hi f hp
        rw [hf] at h
        split at h
        · obtain ⟨j1, j2, j3⟩ := loop_count sw toks false _ _ _ _ _ _ hs' i1 (hc.trans i2.symm) h
          exact ⟨j1, j2, j3.trans (hkeys fun a ha => (hp a ha).key)⟩
        · split at h
          · obtain ⟨j1, j2, j3⟩ := loop_count sw toks false _ _ _ _ _ _ hs' i1 (hc.trans i2.symm) h
            exact ⟨j1, j2, j3.trans (hkeys fun a ha => (hp a ha).key)⟩
          · cases h
      · rw [hh] at h
        simp only at h
        rw [hf] at h
        obtain ⟨i1, i2⟩ := inv_hit hi f ha hhit hp
        obtain ⟨j1, j2, j3⟩ := loop_count sw toks r.skip _ _ _ _ _ _ hs' i1 (by rw [i2, hc]) h
        refine ⟨j1, j2, j3.trans ?_⟩
        have hk : ∀ b ∈ args, key (f b) = key b := by
          intro b hb
          by_cases e : b.id = a.id
          · rw [eq_of_id hi.ids hb ha e]; exact hhit.1
          · exact (hp b hb e).key
        rw [← hkeys hk]
        unfold check
        split
        · rw [List.map_map]
          apply List.map_congr_left
          intro b hb
          simp only [Function.comp_apply]
          unfold markGroup
          split
          · split <;> rfl
          · split <;> rfl
        · rfl

end Ecl.CmdLine
