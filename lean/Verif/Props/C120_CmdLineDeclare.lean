import Verif.Lemmas.CmdLineDeclare
import Verif.Spec.CmdLineDeclare

/-! # C120: which declarations a command line accepts -/
set_option autoImplicit false

namespace Ecl.Props
open Ecl Ecl.CmdLine Ecl.Spec.Declared

variable {V : Type _}

namespace C120

/-- The declaration of an argument without labels. -/
def positional (x : Decl V) : Bool :=
  match x.slot with
  | .value _ | .multi _ => x.unlabeled
  | .switch _ | .multiSwitch _ => false

/-- What is declared, alone or in an exclusive group; the help shows whether the argument is required. -/
def entry (group : Bool) (x : Decl V) : Entry where
  flag := if positional x then [] else x.flag
  name := x.name
  desc := x.desc
  shown :=
    if group then "(OR required)  ".toList ++ x.desc
    else match x.slot with
      | .value _ | .multi _ => if x.required then "(required)  ".toList ++ x.desc else x.desc
      | .switch _ | .multiSwitch _ => x.desc
  positional := positional x
  last := match x.slot with
    | .value _ => x.unlabeled && !x.required
    | _ => false

/-- All the arguments of a program, in order. -/
def entries (prog : List (Stmt V)) : List Entry :=
  prog.flatMap fun
    | .one x => [entry false x]
    | .xor xs => xs.map (entry true)

/-! ### Proof -/

def Fine' (x : Entry) : Prop :=
  x.flag.length ≤ 1 ∧ (x.name ≠ ignoreName → x.flag ≠ ['-'] ∧ x.flag ≠ [' ']) ∧ '-' ∉ x.name ∧ ' ' ∉ x.name

def NoSame (x y : Entry) : Prop :=
  y.name ≠ x.name ∧ (y.positional = false → y.flag ≠ [] → y.flag ≠ x.flag) ∧
  (y.positional = true → y.desc ≠ x.shown)

def InOrder (x y : Entry) : Prop := ¬(x.last = true ∧ y.positional = true)

theorem follows_iff (x y : Entry) : Follows x y ↔ NoSame x y ∧ InOrder x y := by
  simp [Follows, NoSame, InOrder, and_assoc]

def Like (e : Entry) (a : Arg V) : Prop :=
  a.flag = e.flag ∧ a.name = e.name ∧ a.desc = e.desc ∧ getDescription a = e.shown ∧ a.unlabeled = e.positional

def Rep (D : List Entry) (as : List (Arg V)) : Prop :=
  (∀ a ∈ as, ∃ e ∈ D, Like e a) ∧ ∀ e ∈ D, ∃ a ∈ as, Like e a

theorem positional_eq (x : Decl V) : x.isUnlabeled = positional x := by
  unfold Decl.isUnlabeled positional
  cases x.slot <;> rfl

theorem like_one (x : Decl V) (id : Nat) : Like (entry false x) (construct x id) := by
  refine ⟨?_, rfl, rfl, ?_, positional_eq x⟩
  · show (if x.isUnlabeled then [] else x.flag) = if positional x then [] else x.flag
    rw [positional_eq]
  · unfold getDescription entry construct
    cases hr : x.required <;> cases x.slot <;> rfl

theorem like_group (x : Decl V) (id : Nat) :
    Like (entry true x) { construct x id with required := true, requireLabel := "OR required".toList } := by
  refine ⟨?_, rfl, rfl, ?_, positional_eq x⟩
  · show (if x.isUnlabeled then [] else x.flag) = if positional x then [] else x.flag
    rw [positional_eq]
  · simp [getDescription, entry, construct]

theorem same_iff {x y : Entry} {a b : Arg V} (hb : Like x b) (ha : Like y a) :
    same a b = false ↔ NoSame x y := by
  obtain ⟨a1, a2, a3, a4, a5⟩ := ha
  obtain ⟨b1, b2, b3, b4, b5⟩ := hb
  unfold same NoSame
  rw [a1, a2, a3, a5, b1, b2, b4]
  cases y.positional
  · simp only [Bool.false_eq_true, if_false, Bool.or_eq_false_iff, Bool.and_eq_false_iff, decide_eq_false_iff_not,
      Decidable.not_not, forall_const, false_implies, and_true]
    constructor
    · rintro ⟨h1, h2⟩
      exact ⟨h2, fun h3 => h1.resolve_left h3⟩
    · rintro ⟨h1, h2⟩
      refine ⟨?_, h1⟩
      by_cases h3 : y.flag = []
      · exact .inl h3
      · exact .inr (h2 h3)
  · simp

theorem any_iff {D : List Entry} {as : List (Arg V)} (h : Rep D as) {y : Entry} {a : Arg V} (ha : Like y a) :
    as.any (same a) = false ↔ ∀ x ∈ D, NoSame x y := by
  rw [List.any_eq_false]
  constructor
  · intro hn x hx
    obtain ⟨b, hb, hl⟩ := h.2 x hx
    exact (same_iff hl ha).1 (by simpa using hn b hb)
  · intro hn b hb
    obtain ⟨x, hx, hl⟩ := h.1 b hb
    simpa using (same_iff hl ha).2 (hn x hx)

theorem add_cases {D : List Entry} {c : T V} (h : Rep D c.args) {y : Entry} {a : Arg V} (ha : Like y a) :
    ((∀ x ∈ D, NoSame x y) ∧ ∃ c', add c a = .ok c' ∧ Rep (D ++ [y]) c'.args ∧
      c'.optionalSeen = c.optionalSeen) ∨
    (¬(∀ x ∈ D, NoSame x y) ∧ ∃ e, add c a = .error e) := by
  cases hs : c.args.any (same a)
  · have hadd : add c a = .ok { c with
        args := if a.unlabeled then c.args ++ [a] else a :: c.args
        numRequired := if isRequired a then c.numRequired + 1 else c.numRequired } := by
      unfold add; rw [hs, if_neg (by simp)]
    refine .inl ⟨(any_iff h ha).1 hs, _, hadd, ?_, rfl⟩
    have hm : ∀ b, b ∈ (if a.unlabeled then c.args ++ [a] else a :: c.args) ↔ b ∈ c.args ∨ b = a := by
      intro b
      split <;> simp [or_comm]
    constructor
    · intro b hb
      rcases (hm b).1 hb with hb | rfl
      · obtain ⟨x, hx, hl⟩ := h.1 b hb
        exact ⟨x, by simp [hx], hl⟩
      · exact ⟨y, by simp, ha⟩
    · intro x hx
      rcases List.mem_append.1 hx with hx | hx
      · obtain ⟨b, hb, hl⟩ := h.2 x hx
        exact ⟨b, (hm b).2 (.inl hb), hl⟩
      · rw [List.mem_singleton.1 hx]
        exact ⟨a, (hm a).2 (.inr rfl), ha⟩
  · refine .inr ⟨fun hn => ?_, _, by unfold add; rw [hs, if_pos rfl]⟩
    rw [(any_iff h ha).2 hn] at hs
    cases hs

theorem ctor_cases (flag name : List Char) (y : Entry) (h1 : y.flag = flag) (h2 : y.name = name) :
    (Fine' y ∧ argCtor flag name = .ok ()) ∨ (¬Fine' y ∧ ∃ e, argCtor flag name = .error e) := by
  subst h1 h2
  cases h : argCtor y.flag y.name with
  | ok u => exact .inl ⟨argCtor_ok h, rfl⟩
  | error e =>
    refine .inr ⟨?_, e, rfl⟩
    rintro ⟨f1, f2, f3, f4⟩
    unfold argCtor at h
    rw [if_neg (by omega), if_neg, if_neg] at h
    · cases h
    · simp [f3, f4]
    · rintro ⟨hne, hf⟩
      rcases hf with hf | hf | hf
      · exact (f2 hne).1 hf
      · rw [hf] at f1; exact absurd f1 (by decide)
      · exact (f2 hne).2 hf

theorem newArg_cases (c : T V) (x : Decl V) (id : Nat) (g : Bool) :
    ((Fine' (entry g x) ∧ ¬(c.optionalSeen = true ∧ (entry g x).positional = true)) ∧
      newArg c x id = .ok ({ c with optionalSeen := c.optionalSeen || (entry g x).last }, construct x id)) ∨
    (¬(Fine' (entry g x) ∧ ¬(c.optionalSeen = true ∧ (entry g x).positional = true)) ∧
      ∃ e, newArg c x id = .error e) := by
  have hf : (entry g x).flag = if x.isUnlabeled then [] else x.flag := by rw [positional_eq]; rfl
  rcases ctor_cases _ x.name (entry g x) hf rfl with ⟨h1, h2⟩ | ⟨h1, e, h2⟩
  · unfold newArg trackerCheck
    rw [h2, positional_eq]
    have hp : (entry g x).positional = positional x := rfl
    have hl : positional x = false → (entry g x).last = false := by
      unfold positional entry
      cases x.slot <;> simp
      intro h; simp [h]
    have hl' : positional x = true → (entry g x).last = match x.slot with
        | .multi _ => false
        | _ => !x.required := by
      unfold positional entry
      cases x.slot <;> simp
      intro h; simp [h]
    cases hpos : positional x
    · refine .inl ⟨⟨h1, by simp [hp, hpos]⟩, ?_⟩
      simp [hl hpos]
    · cases ho : c.optionalSeen
      · refine .inl ⟨⟨h1, by simp⟩, ?_⟩
        rw [hl' hpos]
        simp only [Bool.false_eq_true, if_false, if_true, Bool.false_or]
        cases x.slot <;> rfl
      · refine .inr ⟨by simp [hp, hpos], .afterOptional, ?_⟩
        simp
  · refine .inr ⟨fun h => h1 h.1, e, ?_⟩
    unfold newArg
    rw [h2]

/-- What the constructors of a group need. -/
def Made (seen : Bool) (es : List Entry) : Prop :=
  (∀ y ∈ es, Fine' y) ∧ (seen = true → ∀ y ∈ es, y.positional = false) ∧ es.Pairwise InOrder

theorem made_cons (seen : Bool) (y : Entry) (es : List Entry) :
    Made seen (y :: es) ↔ (Fine' y ∧ ¬(seen = true ∧ y.positional = true)) ∧ Made (seen || y.last) es := by
  unfold Made
  rw [List.pairwise_cons]
  simp only [List.forall_mem_cons, InOrder, Bool.or_eq_true]
  cases seen <;> cases y.last <;> simp
  all_goals grind

def groupArgs : List (Decl V) → Nat → List (Arg V)
  | [], _ => []
  | x :: xs, id => construct x id :: groupArgs xs (id + 1)

theorem newArgs_cases : ∀ (xs : List (Decl V)) (c : T V) (id : Nat),
    (Made c.optionalSeen (xs.map (entry true)) ∧
      newArgs c xs id = .ok ({ c with optionalSeen := c.optionalSeen || (xs.map (entry true)).any Entry.last },
        groupArgs xs id)) ∨
    (¬Made c.optionalSeen (xs.map (entry true)) ∧ ∃ e, newArgs c xs id = .error e)
  | [], c, id => .inl ⟨⟨by simp, by simp, by simp⟩, by simp [newArgs, groupArgs]⟩
  | x :: xs, c, id => by
    rw [List.map_cons, made_cons, newArgs]
    rcases newArg_cases c x id true with ⟨h1, h2⟩ | ⟨h1, e, h2⟩
    · rw [h2]
      rcases newArgs_cases xs { c with optionalSeen := c.optionalSeen || (entry true x).last } (id + 1) with
        ⟨h3, h4⟩ | ⟨h3, e, h4⟩
      · refine .inl ⟨⟨h1, h3⟩, ?_⟩
        simp only [h4, List.any_cons, Bool.or_assoc, groupArgs]
      · refine .inr ⟨fun h => h3 h.2, e, ?_⟩
        simp only [h4]
    · refine .inr ⟨fun h => h1 h.1, e, ?_⟩
      rw [h2]

theorem addAll_cases : ∀ (xs : List (Decl V)) (id : Nat) (c : T V) (D : List Entry), Rep D c.args →
    (((xs.map (entry true)).Pairwise NoSame ∧ ∀ x ∈ D, ∀ y ∈ xs.map (entry true), NoSame x y) ∧
      ∃ c', addAll c (groupArgs xs id) = .ok c' ∧ Rep (D ++ xs.map (entry true)) c'.args ∧
        c'.optionalSeen = c.optionalSeen) ∨
    (¬((xs.map (entry true)).Pairwise NoSame ∧ ∀ x ∈ D, ∀ y ∈ xs.map (entry true), NoSame x y) ∧
      ∃ e, addAll c (groupArgs xs id) = .error e)
  | [], _, c, D, h => .inl ⟨⟨by simp, by simp⟩, c, rfl, by simpa using h, rfl⟩
  | x :: xs, id, c, D, h => by
    rw [List.map_cons, groupArgs, addAll]
    have e1 : ((entry true x :: xs.map (entry true)).Pairwise NoSame ∧
        ∀ u ∈ D, ∀ y ∈ entry true x :: xs.map (entry true), NoSame u y) ↔
        (∀ u ∈ D, NoSame u (entry true x)) ∧ ((xs.map (entry true)).Pairwise NoSame ∧
          ∀ u ∈ D ++ [entry true x], ∀ y ∈ xs.map (entry true), NoSame u y) := by
      rw [List.pairwise_cons]
      simp only [List.forall_mem_cons, List.forall_mem_append, List.not_mem_nil, false_implies, implies_true,
        and_true]
      constructor
      · rintro ⟨⟨h1, h2⟩, h3⟩
        exact ⟨fun u hu => (h3 u hu).1, h2, fun u hu => (h3 u hu).2, h1⟩
      · rintro ⟨h1, h2, h3, h4⟩
        exact ⟨⟨h4, h2⟩, fun u hu => ⟨h1 u hu, h3 u hu⟩⟩
    rw [e1]
    rcases add_cases h (like_group x id) with ⟨h1, c1, h2, h3, h4⟩ | ⟨h1, e, h2⟩
    · rw [h2]
      rcases addAll_cases xs (id + 1) c1 (D ++ [entry true x]) h3 with ⟨h5, c2, h6, h7, h8⟩ | ⟨h5, e, h6⟩
      · refine .inl ⟨⟨h1, h5⟩, c2, h6, ?_, by rw [h8, h4]⟩
        simpa using h7
      · exact .inr ⟨fun h => h5 h.2, e, h6⟩
    · exact .inr ⟨fun h => h1 h.1, e, by rw [h2]⟩

/-- What a list of declarations needs after those in `D`. -/
def Good (D es : List Entry) : Prop :=
  (∀ y ∈ es, Fine' y) ∧ es.Pairwise Follows ∧ ∀ x ∈ D, ∀ y ∈ es, Follows x y

theorem good_append (D es fs : List Entry) : Good D (es ++ fs) ↔ Good D es ∧ Good (D ++ es) fs := by
  unfold Good
  rw [List.pairwise_append]
  simp only [List.forall_mem_append]
  constructor
  · rintro ⟨⟨h1, h2⟩, ⟨h3, h4, h5⟩, h6⟩
    exact ⟨⟨h1, h3, fun x hx => (h6 x hx).1⟩, h2, h4, fun x hx => (h6 x hx).2, h5⟩
  · rintro ⟨⟨h1, h3, h6⟩, h2, h4, h7, h5⟩
    exact ⟨⟨h1, h2⟩, ⟨h3, h4, h5⟩, fun x hx => ⟨h6 x hx, h7 x hx⟩⟩

theorem good_iff (D es : List Entry) : Good D es ↔ Made (D.any Entry.last) es ∧
    (es.Pairwise NoSame ∧ ∀ x ∈ D, ∀ y ∈ es, NoSame x y) := by
  unfold Good Made
  have e1 : es.Pairwise Follows ↔ es.Pairwise NoSame ∧ es.Pairwise InOrder := by
    rw [← List.pairwise_and_iff]
    exact List.Pairwise.iff (fun {x y} => follows_iff x y)
  rw [e1]
  simp only [follows_iff, List.any_eq_true]
  constructor
  · rintro ⟨h1, ⟨h2, h3⟩, h4⟩
    refine ⟨⟨h1, ?_, h3⟩, h2, fun x hx y hy => (h4 x hx y hy).1⟩
    rintro ⟨x, hx, hl⟩ y hy
    have := (h4 x hx y hy).2
    cases hp : y.positional
    · rfl
    · exact absurd ⟨hl, hp⟩ this
  · rintro ⟨⟨h1, h2, h3⟩, h4, h5⟩
    refine ⟨h1, ⟨h4, h3⟩, fun x hx y hy => ⟨h5 x hx y hy, ?_⟩⟩
    rintro ⟨hl, hp⟩
    rw [h2 ⟨x, hx, hl⟩ y hy] at hp
    cases hp

theorem declare_cases : ∀ (prog : List (Stmt V)) (c : T V) (id : Nat) (D : List Entry), Rep D c.args →
    c.optionalSeen = D.any Entry.last →
    (Good D (entries prog) ∧ ∃ c', declare c prog id = .ok c' ∧ Rep (D ++ entries prog) c'.args) ∨
    (¬Good D (entries prog) ∧ ∃ e, declare c prog id = .error e)
  | [], c, id, D, h, ho => .inl ⟨⟨by simp [entries], by simp [entries], by simp [entries]⟩, c, rfl,
      by simpa [entries] using h⟩
  | .one x :: prog, c, id, D, h, ho => by
    have e1 : entries (.one x :: prog) = [entry false x] ++ entries prog := rfl
    have e2 : Good D [entry false x] ↔
        (Fine' (entry false x) ∧ ¬(c.optionalSeen = true ∧ (entry false x).positional = true)) ∧
          ∀ u ∈ D, NoSame u (entry false x) := by
      rw [good_iff, made_cons, ho]
      simp [Made]
    rw [e1, good_append, e2, declare]
    rcases newArg_cases c x id false with ⟨h1, h2⟩ | ⟨h1, e, h2⟩
    · rw [h2]
      rcases add_cases (c := { c with optionalSeen := c.optionalSeen || (entry false x).last }) h (like_one x id) with
        ⟨h3, c1, h4, h5, h6⟩ | ⟨h3, e, h4⟩
      · simp only [h4]
        rcases declare_cases prog c1 (id + 1) (D ++ [entry false x]) h5 (by simp [h6, ho]) with
          ⟨h7, c2, h8, h9⟩ | ⟨h7, e, h8⟩
        · exact .inl ⟨⟨⟨h1, h3⟩, h7⟩, c2, h8, by simpa using h9⟩
        · exact .inr ⟨fun h => h7 h.2, e, h8⟩
      · exact .inr ⟨fun h => h3 h.1.2, e, by simp only [h4]⟩
    · exact .inr ⟨fun h => h1 h.1.1, e, by rw [h2]⟩
  | .xor xs :: prog, c, id, D, h, ho => by
    have e1 : entries (.xor xs :: prog) = xs.map (entry true) ++ entries prog := rfl
    rw [e1, good_append, good_iff, declare, ← ho]
    rcases newArgs_cases xs c id with ⟨h1, h2⟩ | ⟨h1, e, h2⟩
    · rw [h2]
      simp only [xorAdd]
      generalize hc1 : T.mk c.args (c.xors ++ [(groupArgs xs id).map Arg.id]) c.numRequired c.delim c.ignoreRest
        (c.optionalSeen || (xs.map (entry true)).any Entry.last) = c1
      have ha : c1.args = c.args := by rw [← hc1]
      have hs : c1.optionalSeen = (c.optionalSeen || (xs.map (entry true)).any Entry.last) := by rw [← hc1]
      rcases addAll_cases xs id c1 D (by rw [ha]; exact h) with ⟨h3, c2, h4, h5, h6⟩ | ⟨h3, e, h4⟩
      · simp only [h4]
        rcases declare_cases prog c2 (id + xs.length) (D ++ xs.map (entry true)) h5
            (by rw [h6, hs, ho, List.any_append]) with ⟨h7, c3, h8, h9⟩ | ⟨h7, e, h8⟩
        · exact .inl ⟨⟨⟨h1, h3⟩, h7⟩, c3, h8, by simpa using h9⟩
        · exact .inr ⟨fun h => h7 h.2, e, h8⟩
      · exact .inr ⟨fun h => h3 h.1.2, e, by simp only [h4]⟩
    · exact .inr ⟨fun h => h1 h.1.1, e, by rw [h2]⟩

theorem rep_new (d : Char) (hv : Bool) : Rep (builtins hv) (new d hv : T V).args := by
  cases hv
  · constructor
    · intro a ha
      simp only [new, Bool.false_eq_true, if_false, List.mem_singleton] at ha
      subst ha
      exact ⟨_, .head _, rfl, rfl, rfl, rfl, rfl⟩
    · intro e he
      simp only [builtins, Bool.false_eq_true, if_false, List.nil_append, List.mem_singleton] at he
      subst he
      exact ⟨_, .head _, rfl, rfl, rfl, rfl, rfl⟩
  · constructor
    · intro a ha
      simp only [new, if_true, List.mem_cons, List.not_mem_nil, or_false] at ha
      rcases ha with rfl | rfl | rfl
      · exact ⟨_, .tail _ (.tail _ (.head _)), rfl, rfl, rfl, rfl, rfl⟩
      · exact ⟨_, .tail _ (.head _), rfl, rfl, rfl, rfl, rfl⟩
      · exact ⟨_, .head _, rfl, rfl, rfl, rfl, rfl⟩
    · intro e he
      simp only [builtins, if_true, List.cons_append, List.nil_append, List.mem_cons, List.not_mem_nil, or_false] at he
      rcases he with rfl | rfl | rfl
      · exact ⟨_, .tail _ (.tail _ (.head _)), rfl, rfl, rfl, rfl, rfl⟩
      · exact ⟨_, .tail _ (.head _), rfl, rfl, rfl, rfl, rfl⟩
      · exact ⟨_, .head _, rfl, rfl, rfl, rfl, rfl⟩

theorem good_new (hv : Bool) (es : List Entry) :
    Good (builtins hv) es ↔ (∀ y ∈ es, Fine y) ∧ (builtins hv ++ es).Pairwise Follows := by
  unfold Good
  rw [List.pairwise_append]
  have hb : (builtins hv).Pairwise Follows := by
    cases hv
    · simp [builtins]
    · simp only [builtins, if_true, List.cons_append, List.nil_append, List.pairwise_cons, List.mem_cons,
        List.not_mem_nil, or_false, forall_eq_or_imp, forall_eq, false_implies, implies_true, and_true,
        List.Pairwise.nil, Follows]
      decide
  constructor
  · rintro ⟨h1, h2, h3⟩
    refine ⟨fun y hy => ?_, hb, h2, h3⟩
    obtain ⟨f1, f2, f3, f4⟩ := h1 y hy
    have h4 := (h3 _ (List.mem_append_right _ (List.mem_singleton.2 rfl)) y hy).1
    have h5 := f2 h4
    exact ⟨f1, h5.1, h5.2, f3, f4⟩
  · rintro ⟨h1, _, h2, h3⟩
    exact ⟨fun y hy => ⟨(h1 y hy).1, fun _ => ⟨(h1 y hy).2.1, (h1 y hy).2.2.1⟩, (h1 y hy).2.2.2.1,
      (h1 y hy).2.2.2.2⟩, h2, h3⟩

end C120

open C120

/-- A program of declarations is accepted exactly if all flags and names are well formed and every argument may
follow those before it and the switches every command line has. -/
theorem C120_accepted (d : Char) (hv : Bool) (prog : List (Stmt V)) :
    (∃ c, declare (new d hv) prog 3 = .ok c) ↔
      (∀ y ∈ entries prog, Fine y) ∧ (builtins hv ++ entries prog).Pairwise Follows := by
  rw [← good_new]
  have ho : (new d hv : T V).optionalSeen = (builtins hv).any Entry.last := by cases hv <;> rfl
  rcases declare_cases prog (new d hv) 3 (builtins hv) (rep_new d hv) ho with ⟨h1, c, h2, _⟩ | ⟨h1, e, h2⟩
  · exact ⟨fun _ => h1, fun _ => ⟨c, h2⟩⟩
  · refine ⟨?_, fun h => absurd h h1⟩
    rintro ⟨c, hc⟩
    rw [h2] at hc
    cases hc

/-- Arguments that all have labels are accepted, in any order and grouping, exactly if all flags and names are
well formed and no two share a name or a flag, nor one with the switches every command line has. -/
theorem C120_labelled (d : Char) (hv : Bool) (prog : List (Stmt V))
    (hl : ∀ y ∈ entries prog, y.positional = false) :
    (∃ c, declare (new d hv) prog 3 = .ok c) ↔
      (∀ y ∈ entries prog, Fine y) ∧
      (builtins hv ++ entries prog).Pairwise fun x y => x.name ≠ y.name ∧ (x.flag ≠ [] → x.flag ≠ y.flag) := by
  rw [C120_accepted]
  have hb : ∀ y ∈ builtins hv ++ entries prog, y.positional = false := by
    intro y hy
    rcases List.mem_append.1 hy with hy | hy
    · cases hv <;> simp only [builtins, Bool.false_eq_true, if_true, if_false, List.cons_append, List.nil_append,
        List.mem_cons, List.not_mem_nil, or_false] at hy
      · subst hy; rfl
      · rcases hy with rfl | rfl | rfl <;> rfl
    · exact hl y hy
  refine and_congr_right fun _ => List.Pairwise.iff_of_mem ?_
  intro x y hx hy
  unfold Follows
  rw [hb y hy]
  simp only [forall_const, Bool.false_eq_true, false_implies, and_false, not_false_eq_true, and_true, true_and]
  constructor
  · rintro ⟨h1, h2⟩
    refine ⟨fun e => h1 e.symm, fun h3 e => ?_⟩
    exact h2 (e ▸ h3) e.symm
  · rintro ⟨h1, h2⟩
    refine ⟨fun e => h1 e.symm, fun h3 e => ?_⟩
    exact h2 (e ▸ h3) e.symm

/-- The description decides, and the order: a file argument without labels is rejected after an optional one with
labels that has the same description, although no names and flags are shared; it is accepted before it, and if
the other is required. -/
theorem C120_fails_description (ext : List Char → Ext Int) :
    let labelled (req : Bool) : Stmt Int := .one ⟨['i'], ['i', 'n'], ['f', 'i', 'l', 'e'], req, false, ext, none, .value 0⟩
    let file : Stmt Int := .one ⟨[], ['o', 'u', 't'], ['f', 'i', 'l', 'e'], true, true, ext, none, .value 0⟩
    (¬∃ c, declare (new ' ' true) [labelled false, file] 3 = .ok c) ∧
    (∃ c, declare (new ' ' true) [file, labelled false] 3 = .ok c) ∧
    (∃ c, declare (new ' ' true) [labelled true, file] 3 = .ok c) := by
  refine ⟨?_, ⟨_, rfl⟩, ⟨_, rfl⟩⟩
  rintro ⟨c, hc⟩
  cases hc

/-- A program of three arguments and a group that is accepted. -/
example : ∃ c, declare (new ' ' true : T Int)
    [.one ⟨['n'], ['n', 'u'], ['a'], true, false, extractInt, none, .value 0⟩,
     .xor [⟨['a'], ['a', 'l'], ['b'], false, false, extractInt, none, .switch false⟩,
       ⟨['b'], ['b', 'e'], ['c'], false, false, extractInt, none, .switch false⟩],
     .one ⟨[], ['f', 'i'], ['d'], false, true, extractInt, none, .value 0⟩] 3 = .ok c := ⟨_, rfl⟩

/-- A second `-h` is not. -/
example : ¬∃ c, declare (new ' ' true : T Int)
    [.one ⟨['h'], ['n', 'u'], ['a'], true, false, extractInt, none, .value 0⟩] 3 = .ok c := by
  rintro ⟨c, hc⟩; cases hc

end Ecl.Props
