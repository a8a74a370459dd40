import Verif.Lemmas.CmdLineCount

/-! Helper lemmas: what declaring arguments guarantees. -/
set_option autoImplicit false
set_option linter.unusedSimpArgs false
set_option linter.unusedVariables false

namespace Ecl.CmdLine

variable {V : Type _}

/-- A declared argument before parsing. -/
structure Good (a : Arg V) : Prop where
  unset : a.alreadySet = false ∧ a.xorSet = false ∧ a.allowMore = false
  empty : ∀ vs, a.slot = .multi vs → vs = []
  flagLen : a.flag.length ≤ 1
  nameDash : '-' ∉ a.name
  nameSpace : ' ' ∉ a.name
  flagSpace : a.flag ≠ [' ']
  flagDash : a.flag = ['-'] → a.visitor = .ignore
  sane : Sane a
  unflag : a.unlabeled = true → a.flag = []
  vis : a.visitor ≠ .none → kind a.slot = .switch ∧ a.required = false

/-- Two declared arguments, the first earlier in the list. -/
def Apart (a b : Arg V) : Prop :=
  a.name ≠ b.name ∧ a.id ≠ b.id ∧ (a.flag ≠ [] → a.flag ≠ b.flag) ∧
    (a.unlabeled = true → b.unlabeled = true)

/-- `k` members of the exclusive groups are still to be added. -/
structure DInv (c : T V) (next k : Nat) : Prop where
  good : ∀ a ∈ c.args, Good a
  apart : c.args.Pairwise Apart
  bound : ∀ a ∈ c.args, a.id < next
  ign : ∃ b ∈ c.args, b.name = ignoreName
  ignoreRest : c.ignoreRest = false
  req : ∀ a ∈ c.args, a.required = true → inGroup c.xors a.id = false →
    kind a.slot = .value ∨ kind a.slot = .multi
  grp : ∀ a ∈ c.args, inGroup c.xors a.id = true → a.required = true
  num : c.numRequired + k =
    c.args.countP (fun a => a.required && !inGroup c.xors a.id) + (c.xors.map List.length).sum

theorem dinv_new (d : Char) (hv : Bool) : DInv (new d hv : T V) 3 0 := by
  have hgood : ∀ (id : Nat) (flag name desc : Str) (v : Visitor), flag.length ≤ 1 → '-' ∉ name →
      ' ' ∉ name → flag ≠ [' '] → (flag = ['-'] → v = .ignore) →
      Good (builtin id flag name desc v : Arg V) := by
    intro id flag name desc v h1 h2 h3 h4 h5
    exact ⟨⟨rfl, rfl, rfl⟩, (by intro vs h; cases h), h1, h2, h3, h4, h5, (by intro h; cases h),
      (by intro h; cases h), fun _ => ⟨rfl, rfl⟩⟩
  cases hv
  · refine ⟨?_, ?_, ?_, ?_, rfl, ?_, ?_, ?_⟩
    · simp only [new, Bool.false_eq_true, if_false, List.mem_singleton, forall_eq]
      exact hgood _ _ _ _ _ (by decide) (by decide) (by decide) (by decide) (by simp)
    · simp [new]
    · simp [new, builtin]
    · simp [new, builtin]
    · simp [new, builtin]
    · simp [new, builtin, inGroup]
    · simp [new, builtin, inGroup]
  · refine ⟨?_, ?_, ?_, ?_, rfl, ?_, ?_, ?_⟩
    · simp only [new, if_true, List.mem_cons, List.not_mem_nil, or_false, forall_eq_or_imp,
        forall_eq]
      refine ⟨?_, ?_, ?_⟩ <;>
        exact hgood _ _ _ _ _ (by decide) (by decide) (by decide) (by decide) (by decide)
    · have hap : ∀ (i j : Nat) (f g m n s t : Str) (v w : Visitor), i ≠ j → m ≠ n →
          (f ≠ [] → f ≠ g) → Apart (builtin i f m s v : Arg V) (builtin j g n t w) :=
        fun i j f g m n s t v w h1 h2 h3 => ⟨h2, h1, h3, id⟩
      show List.Pairwise Apart [_, _, _]
      refine List.pairwise_cons.2 ⟨?_, List.pairwise_cons.2 ⟨?_, List.pairwise_singleton _ _⟩⟩
      · intro b hb
        rcases List.mem_cons.1 hb with rfl | hb
        · exact hap _ _ _ _ _ _ _ _ _ _ (by decide) (by decide) (by decide)
        · rw [List.mem_singleton.1 hb]
          exact hap _ _ _ _ _ _ _ _ _ _ (by decide) (by decide) (by decide)
      · intro b hb
        rw [List.mem_singleton.1 hb]
        exact hap _ _ _ _ _ _ _ _ _ _ (by decide) (by decide) (by decide)
    · simp [new, builtin]
    · simp [new, builtin]
    · simp [new, builtin]
    · simp [new, builtin, inGroup]
    · simp [new, builtin, inGroup]

theorem same_false {a b : Arg V} (h : same a b = false) :
    a.name ≠ b.name ∧ (a.unlabeled = false → a.flag ≠ [] → a.flag ≠ b.flag) := by
  unfold same at h
  split at h
  · rename_i hu
    simp at h
    exact ⟨h.1, fun h' => by rw [hu] at h'; cases h'⟩
  · simp at h
    refine ⟨h.2, fun _ h1 h2 => ?_⟩
    exact h.1 h1 h2

/-- What `add` needs to know about the new argument. -/
structure Fresh (a : Arg V) : Prop where
  unset : a.alreadySet = false ∧ a.xorSet = false ∧ a.allowMore = false
  empty : ∀ vs, a.slot = .multi vs → vs = []
  flagLen : a.flag.length ≤ 1
  nameDash : '-' ∉ a.name
  nameSpace : ' ' ∉ a.name
  flagOk : a.name ≠ ignoreName → a.flag ≠ ['-'] ∧ a.flag ≠ [' ']
  sane : Sane a
  unflag : a.unlabeled = true → a.flag = []
  vis : a.visitor = .none

theorem isRequired_fresh {a : Arg V} (h : Fresh a) : isRequired a = a.required := by
  unfold isRequired
  split
  · rename_i vs hs
    rw [h.empty vs hs]; simp
  · rfl

theorem add_eq {c c' : T V} {a : Arg V} (h : add c a = .ok c') :
    (∀ b ∈ c.args, same a b = false) ∧
    c' = T.mk (if a.unlabeled then c.args ++ [a] else a :: c.args) c.xors
      (if isRequired a then c.numRequired + 1 else c.numRequired) c.delim c.ignoreRest
      c.optionalSeen := by
  unfold add at h
  split at h
  · cases h
  · rename_i hs
    cases h
    refine ⟨?_, rfl⟩
    intro b hb
    cases hsb : same a b
    · rfl
    · exact absurd (List.any_eq_true.2 ⟨b, hb, hsb⟩) hs

theorem add_dinv {c c' : T V} {a : Arg V} {next k k' : Nat} (hc : DInv c next k) (ha : Fresh a)
    (hid : next = a.id)
    (hreq : a.required = true → inGroup c.xors a.id = false →
      kind a.slot = .value ∨ kind a.slot = .multi)
    (hgrp : inGroup c.xors a.id = true → a.required = true ∧ k = k' + 1)
    (hnot : inGroup c.xors a.id = false → k = k')
    (h : add c a = .ok c') :
    DInv c' (next + 1) k' ∧ c'.xors = c.xors ∧ c'.delim = c.delim ∧
      (∀ b, b ∈ c'.args ↔ b = a ∨ b ∈ c.args) := by
  obtain ⟨hsame, rfl⟩ := add_eq h
  have hname : ∀ b ∈ c.args, a.name ≠ b.name := fun b hb => (same_false (hsame b hb)).1
  have hni : a.name ≠ ignoreName := by
    obtain ⟨b, hb, hbn⟩ := hc.ign
    exact fun e => hname b hb (e.trans hbn.symm)
  have hgood : Good a :=
    ⟨ha.unset, ha.empty, ha.flagLen, ha.nameDash, ha.nameSpace, (ha.flagOk hni).2,
      fun e => absurd e (ha.flagOk hni).1, ha.sane, ha.unflag, fun e => absurd ha.vis e⟩
  have hmem : ∀ b, b ∈ (if a.unlabeled then c.args ++ [a] else a :: c.args) ↔
      b = a ∨ b ∈ c.args := by
    intro b
    split <;> simp
    exact or_comm
  refine ⟨⟨?_, ?_, ?_, ?_, hc.ignoreRest, ?_, ?_, ?_⟩, rfl, rfl, hmem⟩
  · intro b hb
    rcases (hmem b).1 hb with rfl | hb
    · exact hgood
    · exact hc.good b hb
  · show List.Pairwise Apart (if a.unlabeled then c.args ++ [a] else a :: c.args)
    cases hu : a.unlabeled
    · rw [if_neg (by simp)]
      refine List.pairwise_cons.2 ⟨fun b hb => ⟨hname b hb, ?_, ?_, ?_⟩, hc.apart⟩
      · have := hc.bound b hb; omega
      · exact (same_false (hsame b hb)).2 hu
      · rw [hu]; intro e; cases e
    · rw [if_pos rfl]
      refine List.pairwise_append.2 ⟨hc.apart, by simp, ?_⟩
      intro b hb x hx
      have : x = a := by simpa using hx
      subst this
      refine ⟨(hname b hb).symm, ?_, ?_, fun _ => hu⟩
      · have := hc.bound b hb; omega
      · rw [ha.unflag hu]; exact id
  · intro b hb
    rcases (hmem b).1 hb with rfl | hb
    · omega
    · have := hc.bound b hb; omega
  · obtain ⟨b, hb, hbn⟩ := hc.ign
    exact ⟨b, (hmem b).2 (.inr hb), hbn⟩
  · intro b hb h1 h2
    rcases (hmem b).1 hb with rfl | hb
    · exact hreq h1 h2
    · exact hc.req b hb h1 h2
  · intro b hb h1
    rcases (hmem b).1 hb with rfl | hb
    · exact (hgrp h1).1
    · exact hc.grp b hb h1
  · have hn := hc.num
    have hcount : (if a.unlabeled then c.args ++ [a] else a :: c.args).countP
        (fun a => a.required && !inGroup c.xors a.id) =
        c.args.countP (fun a => a.required && !inGroup c.xors a.id) +
          (if a.required && !inGroup c.xors a.id then 1 else 0) := by
      cases a.unlabeled
      · rw [if_neg (by simp), List.countP_cons]
      · rw [if_pos rfl, List.countP_append]
        simp [List.countP_cons]
    show (if isRequired a then c.numRequired + 1 else c.numRequired) + k' = _ + _
    rw [hcount, isRequired_fresh ha]
    cases hg : inGroup c.xors a.id
    · have := hnot hg
      cases hr : a.required <;> simp <;> omega
    · obtain ⟨hr, hk⟩ := hgrp hg
      simp [hr]; omega

theorem argCtor_ok {flag name : Str} (h : argCtor flag name = .ok ()) :
    flag.length ≤ 1 ∧ (name ≠ ignoreName → flag ≠ ['-'] ∧ flag ≠ [' ']) ∧ '-' ∉ name ∧
      ' ' ∉ name := by
  unfold argCtor at h
  split at h
  · cases h
  · rename_i hl
    split at h
    · cases h
    · rename_i hf
      split at h
      · cases h
      · rename_i hn
        refine ⟨by omega, ?_, ?_, ?_⟩
        · intro hne
          exact ⟨fun e => hf ⟨hne, .inl e⟩, fun e => hf ⟨hne, .inr (.inr e)⟩⟩
        · intro hm; exact hn (.inl (by simpa using hm))
        · intro hm; exact hn (.inr (by simpa using hm))

theorem fresh_construct {d : Decl V} {id : Nat}
    (h : argCtor (if d.isUnlabeled then [] else d.flag) d.name = .ok ()) :
    Fresh (construct d id) := by
  obtain ⟨h1, h2, h3, h4⟩ := argCtor_ok h
  refine ⟨⟨rfl, rfl, rfl⟩, ?_, h1, h3, h4, h2, ?_, ?_, rfl⟩
  · intro vs hs
    cases hd : d.slot <;> simp [construct, hd] at hs
    exact hs
  · intro hu
    have hu : d.isUnlabeled = true := hu
    unfold Decl.isUnlabeled at hu
    cases hd : d.slot <;> simp [hd] at hu <;> simp [construct, hd, kind]
  · intro hu
    have hu : d.isUnlabeled = true := hu
    show (if d.isUnlabeled then [] else d.flag) = []
    rw [if_pos hu]

theorem newArg_spec {c c' : T V} {d : Decl V} {id : Nat} {a : Arg V}
    (h : newArg c d id = .ok (c', a)) :
    a = construct d id ∧ Fresh a ∧ c'.args = c.args ∧ c'.xors = c.xors ∧ c'.delim = c.delim ∧
      c'.ignoreRest = c.ignoreRest ∧ c'.numRequired = c.numRequired := by
  unfold newArg at h
  split at h
  · cases h
  · rename_i hctor
    split at h
    · cases h
    · rename_i c1 ht
      cases h
      refine ⟨rfl, fresh_construct hctor, ?_⟩
      unfold trackerCheck at ht
      split at ht
      · split at ht
        · cases ht
        · cases ht; exact ⟨rfl, rfl, rfl, rfl, rfl⟩
      · cases ht; exact ⟨rfl, rfl, rfl, rfl, rfl⟩

theorem DInv.congr {c c' : T V} {next k : Nat} (h : DInv c next k) (h1 : c'.args = c.args)
    (h2 : c'.xors = c.xors) (h4 : c'.ignoreRest = c.ignoreRest)
    (h5 : c'.numRequired = c.numRequired) : DInv c' next k := by
  constructor
  · rw [h1]; exact h.good
  · rw [h1]; exact h.apart
  · rw [h1]; exact h.bound
  · rw [h1]; exact h.ign
  · rw [h4]; exact h.ignoreRest
  · rw [h1, h2]; exact h.req
  · rw [h1, h2]; exact h.grp
  · rw [h1, h2, h5]; exact h.num

theorem newArgs_spec : ∀ {ds : List (Decl V)} {c c' : T V} {id : Nat} {as : List (Arg V)},
    newArgs c ds id = .ok (c', as) →
    (∀ a ∈ as, Fresh a) ∧ as.map Arg.id = (List.range' id ds.length) ∧ c'.args = c.args ∧
      c'.xors = c.xors ∧ c'.delim = c.delim ∧
      c'.ignoreRest = c.ignoreRest ∧ c'.numRequired = c.numRequired
  | [], c, c', id, as, h => by
    unfold newArgs at h
    cases h
    exact ⟨by simp, rfl, rfl, rfl, rfl, rfl, rfl⟩
  | d :: ds, c, c', id, as, h => by
    unfold newArgs at h
    split at h
    · cases h
    · rename_i c1 a1 h1
      split at h
      · cases h
      · rename_i c2 as2 h2
        cases h
        obtain ⟨e1, e2, e3, e4, e5, e6, e7⟩ := newArg_spec h1
        obtain ⟨f2, f1, f3, f4, f5, f6, f7⟩ := newArgs_spec h2
        refine ⟨?_, ?_, f3.trans e3, f4.trans e4, f5.trans e5, f6.trans e6, f7.trans e7⟩
        · intro a ha
          rcases List.mem_cons.1 ha with rfl | ha
          · exact e2
          · exact f2 a ha
        · rw [List.map_cons, f1, e1]
          simp [List.range'_succ, construct]

theorem addAll_dinv : ∀ {as : List (Arg V)} {c c' : T V} {next : Nat},
    DInv c next as.length → (∀ a ∈ as, Fresh a) → as.map Arg.id = List.range' next as.length →
    (∀ a ∈ as, inGroup c.xors a.id = true) →
    addAll c as = .ok c' →
    DInv c' (next + as.length) 0 ∧ c'.xors = c.xors ∧ c'.delim = c.delim
  | [], c, c', next, hc, hf, hids, hg, h => by
    unfold addAll at h
    cases h
    exact ⟨hc, rfl, rfl⟩
  | a :: as, c, c', next, hc, hf, hids, hg, h => by
    unfold addAll at h
    split at h
    · cases h
    · rename_i c1 h1
      have hids' : a.id = next ∧ as.map Arg.id = List.range' (next + 1) as.length := by
        simpa [List.range'_succ] using hids
      have hfa := hf a (by simp)
      have hfa' : Fresh { a with required := true, requireLabel := "OR required".toList } :=
        ⟨hfa.unset, hfa.empty, hfa.flagLen, hfa.nameDash, hfa.nameSpace, hfa.flagOk, hfa.sane,
          hfa.unflag, hfa.vis⟩
      have hga := hg a (by simp)
      obtain ⟨d1, d2, d3, d4⟩ := add_dinv (k' := as.length) hc hfa' hids'.1.symm
        (fun _ e => by rw [show inGroup c.xors a.id = false from e] at hga; cases hga)
        (fun _ => ⟨rfl, rfl⟩)
        (fun e => by rw [show inGroup c.xors a.id = false from e] at hga; cases hga) h1
      obtain ⟨e1, e2, e3⟩ := addAll_dinv d1 (fun b hb => hf b (List.mem_cons_of_mem _ hb)) hids'.2
        (fun b hb => by rw [d2]; exact hg b (List.mem_cons_of_mem _ hb)) h
      refine ⟨?_, e2.trans d2, e3.trans d3⟩
      have : next + (a :: as).length = next + 1 + as.length := by simp; omega
      rw [this]; exact e1

theorem declare_dinv : ∀ {ss : List (Stmt V)} {c c' : T V} {next : Nat}, DInv c next 0 →
    (∀ g ∈ c.xors, ∀ i ∈ g, i < next) → c.xors.Pairwise (fun g h => ∀ x ∈ g, x ∉ h) →
    declare c ss next = .ok c' →
    ∃ next', DInv c' next' 0 ∧ c'.xors.Pairwise (fun g h => ∀ x ∈ g, x ∉ h) ∧ c'.delim = c.delim
  | [], c, c', next, hc, hb, hd, h => by
    unfold declare at h
    cases h
    exact ⟨next, hc, hd, rfl⟩
  | .one d :: ss, c, c', next, hc, hb, hd, h => by
    unfold declare at h
    split at h
    · cases h
    · rename_i c1 a h1
      split at h
      · cases h
      · rename_i c2 h2
        obtain ⟨e1, e2, e3, e4, e5, e6, e7⟩ := newArg_spec h1
        have hc1 := hc.congr e3 e4 e6 e7
        have hid : a.id = next := by rw [e1]; rfl
        have hng : inGroup c1.xors a.id = false := by
          cases hg : inGroup c1.xors a.id
          · rfl
          · obtain ⟨g, hg, hi⟩ := inGroup_iff.1 hg
            rw [e4] at hg
            have := hb g hg _ hi
            omega
        obtain ⟨d1, d2, d3, d4⟩ := add_dinv (k' := 0) hc1 e2 hid.symm
          (fun hr _ => by
            rw [e1] at hr ⊢
            cases hd : d.slot <;> simp [construct, hd] at hr <;> simp [construct, hd, kind])
          (fun e => by rw [hng] at e; cases e) (fun _ => rfl) h2
        have hx : c2.xors = c.xors := d2.trans e4
        obtain ⟨n, i1, i2, i3⟩ := declare_dinv d1
          (by rw [hx]; intro g hg i hi; have := hb g hg i hi; omega) (by rw [hx]; exact hd) h
        exact ⟨n, i1, i2, i3.trans (d3.trans e5)⟩
  | .xor ds :: ss, c, c', next, hc, hb, hd, h => by
    unfold declare at h
    split at h
    · cases h
    · rename_i c1 as h1
      split at h
      · cases h
      · rename_i c2 h2
        obtain ⟨e1, e2, e3, e4, e5, e6, e7⟩ := newArgs_spec h1
        have hc1 := hc.congr e3 e4 e6 e7
        have hlen : as.length = ds.length := by
          have := congrArg List.length e2
          simpa using this
        unfold xorAdd at h2
        have hold : ∀ i, i < next → inGroup (c1.xors ++ [as.map Arg.id]) i = inGroup c1.xors i := by
          intro i hi
          have hni : i ∉ as.map Arg.id := by
            rw [e2]
            simp
            omega
          simp only [inGroup, List.any_append, List.any_cons, List.any_nil, Bool.or_false, hni,
            decide_false]
        have hc1' : DInv { c1 with xors := c1.xors ++ [as.map Arg.id] } next as.length := by
          refine ⟨hc1.good, hc1.apart, hc1.bound, hc1.ign, hc1.ignoreRest, ?_, ?_, ?_⟩
          · intro a ha hr hg
            refine hc1.req a ha hr ?_
            rw [← hold a.id (hc1.bound a ha)]; exact hg
          · intro a ha hg
            refine hc1.grp a ha ?_
            rw [← hold a.id (hc1.bound a ha)]; exact hg
          · have hn := hc1.num
            have : c1.args.countP (fun a => a.required && !inGroup (c1.xors ++ [as.map Arg.id]) a.id)
                = c1.args.countP (fun a => a.required && !inGroup c1.xors a.id) := by
              apply List.countP_congr
              intro a ha
              rw [hold a.id (hc1.bound a ha)]
            show c1.numRequired + as.length = _ + _
            rw [this]
            simp at hn ⊢
            omega
        obtain ⟨d1, d2, d3⟩ := addAll_dinv hc1' e1 (by rw [hlen]; exact e2)
          (fun a ha => inGroup_iff.2 ⟨as.map Arg.id, by simp, List.mem_map.2 ⟨a, ha, rfl⟩⟩) h2
        have hx : c2.xors = c.xors ++ [as.map Arg.id] := by
          rw [d2]; show c1.xors ++ _ = _; rw [e4]
        rw [hlen] at d1
        obtain ⟨n, i1, i2, i3⟩ := declare_dinv d1
          (by
            rw [hx]
            intro g hg i hi
            rcases List.mem_append.1 hg with hg | hg
            · have := hb g hg i hi; omega
            · have : g = as.map Arg.id := by simpa using hg
              subst this
              rw [e2] at hi
              simp at hi
              omega)
          (by
            rw [hx]
            refine List.pairwise_append.2 ⟨hd, by simp, ?_⟩
            intro g hg g' hg' x hx' hx''
            have : g' = as.map Arg.id := by simpa using hg'
            subst this
            rw [e2] at hx''
            have h1 := hb g hg x hx'
            simp at hx''
            omega) h
        exact ⟨n, i1, i2, i3.trans (d3.trans e5)⟩

/-- Everything the declarations guarantee. -/
theorem declared {d : Char} {hv : Bool} {prog : List (Stmt V)} {c : T V}
    (h : declare (new d hv) prog 3 = .ok c) :
    (∃ n, DInv c n 0) ∧ c.xors.Pairwise (fun g h => ∀ x ∈ g, x ∉ h) ∧ c.delim = d := by
  obtain ⟨n, h1, h2, h3⟩ := declare_dinv (dinv_new d hv) (fun g hg => by cases hg)
    List.Pairwise.nil h
  exact ⟨⟨n, h1⟩, h2, h3⟩

/-- The invariant of parsing holds initially. -/
theorem inv_init {c : T V} {n : Nat} (sw : Bool) (h : DInv c n 0)
    (hd : c.xors.Pairwise (fun g h => ∀ x ∈ g, x ∉ h))
    (hg : ∀ a ∈ c.args, inGroup c.xors a.id = true →
      kind a.slot = .value ∨ (sw = true ∧ kind a.slot = .switch)) :
    Inv c.xors sw c.args ∧ weight c.xors c.args = 0 := by
  refine ⟨⟨h.apart.imp (fun h => h.2.1), hd, fun a ha => ⟨(h.good a ha).sane, (h.good a ha).flagLen⟩,
    ?_, h.req, hg, ?_, ?_⟩, ?_⟩
  · intro a ha hx
    rw [(h.good a ha).unset.2.1] at hx; cases hx
  · intro a ha vs hs
    rw [(h.good a ha).empty vs hs, (h.good a ha).unset.1]; rfl
  · intro g hg a ha b hb _ _ _ hset
    simp [isSet, (h.good a ha).unset.1] at hset
  · unfold weight
    have h1 : c.args.countP (counts c.xors) = 0 := by
      rw [List.countP_eq_zero]
      intro a ha
      simp [counts, (h.good a ha).unset.1]
    have h2 : ∀ g, groupSet c.args g = false := by
      intro g
      unfold groupSet
      rw [List.any_eq_false]
      intro a ha
      simp [isSet, (h.good a ha).unset.1]
    have h3 : (c.xors.map (fun g => if groupSet c.args g then g.length else 0)).sum = 0 := by
      rw [List.sum_eq_zero_iff_forall_eq_nat]
      intro x hx
      obtain ⟨g, _, hg⟩ := List.mem_map.1 hx
      rw [h2 g] at hg
      simpa using hg.symm
    omega

end Ecl.CmdLine
