import Verif.Model.HelpFrame
import Verif.Spec.HelpFrame
import Verif.Props.C90_Usage
import Verif.Lemmas.CmdLineSaid

/-!
# Lemmas about the frame of the help
-/
set_option autoImplicit false

namespace Ecl.HelpFrame
open Ecl.CmdLine (Str Arg T Stmt Decl)
open Ecl.Usage (Item spacePrint shortUsage longID contains usageText secondLineOffset)
open Ecl.Spec.HelpFrame Ecl.Spec

/-- The output is the document if all of it can be broken into lines, and undefined otherwise. -/
def Decides (fuel : Nat) (doc : List Para) (l : Lines) : Prop :=
  (∀ i o s, Para.text i o s ∈ doc → s.length ≤ fuel) →
    ((∀ p ∈ doc, Breakable p) → ∃ ls, l = .ok (some ls) ∧ Shows doc ls) ∧ ((∃ p ∈ doc, ¬Breakable p) → l = .ub)

theorem shows_append {d : List Para} {l : List Str} (h : Shows d l) {d' : List Para} {l' : List Str} (h' : Shows d' l') :
    Shows (d ++ d') (l ++ l') := by
  induction h with
  | nil => exact h'
  | line s ps ls _ ih => exact .line s _ _ ih
  | fits i o s ps ls hf _ ih => exact .fits i o s _ _ hf ih
  | broken i o s ps l ls hf hl _ ih => rw [List.append_assoc]; exact .broken i o s _ _ _ hf hl ih

theorem decides_append {fuel : Nat} {d d' : List Para} {a b : Lines} (h : Decides fuel d a) (h' : Decides fuel d' b) :
    Decides fuel (d ++ d') (andThen a b) := by
  intro hl
  obtain ⟨h1, h2⟩ := h fun i o s hm => hl i o s (List.mem_append_left _ hm)
  obtain ⟨h3, h4⟩ := h' fun i o s hm => hl i o s (List.mem_append_right _ hm)
  constructor
  · intro hb
    obtain ⟨ls, rfl, hs⟩ := h1 fun p hp => hb p (List.mem_append_left _ hp)
    obtain ⟨ls', rfl, hs'⟩ := h3 fun p hp => hb p (List.mem_append_right _ hp)
    exact ⟨ls ++ ls', rfl, shows_append hs hs'⟩
  · rintro ⟨p, hp, hn⟩
    by_cases hd : ∀ p ∈ d, Breakable p
    · obtain ⟨ls, rfl, _⟩ := h1 hd
      have hp' : p ∈ d' := (List.mem_append.1 hp).resolve_left fun hm => hn (hd p hm)
      rw [h4 ⟨p, hp', hn⟩]
      rfl
    · simp only [not_forall] at hd
      obtain ⟨q, hq, hqn⟩ := hd
      rw [h2 ⟨q, hq, hqn⟩]
      rfl

theorem shows_lines : ∀ ls : List Str, Shows (ls.map .line) ls
  | [] => .nil
  | s :: ls => .line s _ _ (shows_lines ls)

theorem decides_put (fuel : Nat) (ls : List Str) : Decides fuel (ls.map .line) (put ls) := by
  intro _
  constructor
  · intro _
    exact ⟨ls, rfl, shows_lines ls⟩
  · rintro ⟨p, hp, hn⟩
    obtain ⟨s, _, rfl⟩ := List.mem_map.1 hp
    exact absurd trivial hn

theorem decides_print {fuel i o : Nat} (s : Str) (hw : i + o < 75) : Decides fuel [.text i o s] (spacePrint 75 i o fuel s) := by
  intro hl
  have hf := hl i o s List.mem_cons_self
  constructor
  · intro hb
    have hb := hb _ List.mem_cons_self
    obtain ⟨ls, h1, h2, h3, _⟩ := Ecl.Props.C90_wrap_partial 75 i o fuel s hw hf hb
    refine ⟨ls, h1, ?_⟩
    by_cases h : s.length + i ≤ 75
    · rw [h2 h]; exact .fits i o s _ _ h .nil
    · have := Shows.broken i o s [] ls [] (by omega) (h3 (by omega)) .nil
      rwa [List.append_nil] at this
  · rintro ⟨p, hp, hn⟩
    rw [List.mem_singleton.1 hp] at hn
    simp only [Breakable, not_or, not_exists, not_and] at hn
    obtain ⟨n, rfl⟩ : ∃ n, fuel = n + 1 := ⟨fuel - 1, by omega⟩
    exact Ecl.Props.C90_fails_wrap 75 i o n s (by omega) (by omega) hn.2

variable {V : Type}

/-- What the help says about an argument. -/
def toEntry (i : Item V) : Entry := ⟨longID i, CmdLine.getDescription i.arg⟩

theorem decides_entry (fuel : Nat) (i : Item V) : Decides fuel (toEntry i).doc (entry fuel i) :=
  decides_append (decides_print _ (by omega)) (decides_print _ (by omega))

theorem decides_group (fuel : Nat) : ∀ g : List (Item V), Decides fuel (groupDoc (g.map toEntry)) (groupUsage fuel g)
  | [] => decides_put fuel [[], []]
  | [i] => by
    have := decides_append (decides_entry fuel i) (decides_put fuel [[], []])
    simpa [groupDoc, List.intercalate, groupUsage] using this
  | i :: j :: is => by
    have := decides_append (decides_entry fuel i)
      (decides_append (decides_print (fuel := fuel) (i := 9) (o := 0) "-- OR --".toList (by omega)) (decides_group fuel (j :: is)))
    have e : groupDoc ((i :: j :: is).map toEntry) =
        (toEntry i).doc ++ ([.text 9 0 "-- OR --".toList] ++ groupDoc ((j :: is).map toEntry)) := by
      simp [groupDoc, List.intercalate, List.intersperse]
    rw [e]
    exact this

theorem decides_groups (fuel : Nat) : ∀ gs : List (List (Item V)),
    Decides fuel ((gs.map fun g => g.map toEntry).flatMap groupDoc) (groupsUsage fuel gs)
  | [] => decides_put fuel []
  | g :: gs => by
    rw [List.map_cons, List.flatMap_cons]
    exact decides_append (decides_group fuel g) (decides_groups fuel gs)

theorem decides_rest (fuel : Nat) (groups : List (List (Item V))) : ∀ is : List (Item V),
    Decides fuel (((is.filter fun i => !contains groups i).map toEntry).flatMap fun e => e.doc ++ [.line []])
      (restUsage fuel groups is)
  | [] => decides_put fuel []
  | i :: is => by
    unfold restUsage
    by_cases h : contains groups i = true
    · rw [if_pos h, List.filter_cons_of_neg (by simp [h])]
      exact decides_rest fuel groups is
    · rw [if_neg h, List.filter_cons_of_pos (by simp [h]), List.map_cons, List.flatMap_cons]
      exact decides_append (decides_append (decides_entry fuel i) (decides_put fuel [[]])) (decides_rest fuel groups is)

/-- The document of a command line. -/
def docOf (c : Cmd V) : List Para :=
  helpDoc (secondLineOffset c.prog) (usageText c.delim c.prog c.groups c.args) (c.groups.map fun g => g.map toEntry)
    ((c.args.filter fun i => !contains c.groups i).map toEntry) c.message

theorem decides_usage (fuel : Nat) (c : Cmd V) : Decides fuel (docOf c) (usage fuel c) := by
  have h1 := decides_append (decides_put fuel [[], "USAGE: ".toList, []])
    (decides_append (decides_print (fuel := fuel) (i := 3) (o := secondLineOffset c.prog)
        (usageText c.delim c.prog c.groups c.args) (by unfold secondLineOffset; split <;> omega))
      (decides_append (decides_put fuel [[], [], "Where: ".toList, []])
        (decides_append (decides_append (decides_groups fuel c.groups)
          (decides_append (decides_rest fuel c.groups c.args)
            (decides_append (decides_put fuel [[]]) (decides_print (fuel := fuel) (i := 3) (o := 0) c.message (by omega)))))
          (decides_put fuel [[]]))))
  have : docOf c = [[], "USAGE: ".toList, []].map Para.line ++
      ([.text 3 (secondLineOffset c.prog) (usageText c.delim c.prog c.groups c.args)] ++
        ([[], [], "Where: ".toList, []].map Para.line ++
          (((c.groups.map fun g => g.map toEntry).flatMap groupDoc ++
            (((c.args.filter fun i => !contains c.groups i).map toEntry).flatMap (fun e => e.doc ++ [.line []]) ++
              ([[]].map Para.line ++ [.text 3 0 c.message]))) ++ [[]].map Para.line))) := by
    simp [docOf, helpDoc]
  rw [this]
  exact h1

/-! ## Declared programs -/

theorem add_sub {c c' : T V} {a : Arg V} (h : CmdLine.add c a = .ok c') :
    c'.xors = c.xors ∧ (∀ b ∈ c.args, b ∈ c'.args) ∧ a ∈ c'.args := by
  obtain ⟨_, rfl⟩ := CmdLine.add_eq h
  refine ⟨rfl, ?_, ?_⟩ <;> dsimp only <;> split <;> simp +contextual

theorem addAll_sub : ∀ {as : List (Arg V)} {c c' : T V}, CmdLine.addAll c as = .ok c' →
    c'.xors = c.xors ∧ (∀ b ∈ c.args, b ∈ c'.args) ∧ ∀ a ∈ as, ∃ b ∈ c'.args, b.id = a.id
  | [], c, c', h => by unfold CmdLine.addAll at h; cases h; exact ⟨rfl, fun _ h => h, by simp⟩
  | a :: as, c, c', h => by
    unfold CmdLine.addAll at h
    split at h
    · cases h
    · rename_i c1 h1
      obtain ⟨x1, x2, x3⟩ := add_sub h1
      obtain ⟨y1, y2, y3⟩ := addAll_sub h
      refine ⟨y1.trans x1, fun b hb => y2 b (x2 b hb), fun b hb => ?_⟩
      rcases List.mem_cons.1 hb with rfl | hb
      · exact ⟨_, y2 _ x3, rfl⟩
      · exact y3 b hb

/-- The members of the groups are arguments, each once. -/
def Members (c : T V) : Prop := ∀ g ∈ c.xors, g.Nodup ∧ ∀ i ∈ g, ∃ a ∈ c.args, a.id = i

theorem declare_members : ∀ {ss : List (Stmt V)} {c c' : T V} {next : Nat}, Members c →
    CmdLine.declare c ss next = .ok c' → Members c' ∧ ∀ b ∈ c.args, b ∈ c'.args
  | [], c, c', next, hm, h => by unfold CmdLine.declare at h; cases h; exact ⟨hm, fun _ h => h⟩
  | .one d :: ss, c, c', next, hm, h => by
    unfold CmdLine.declare at h
    split at h
    · cases h
    · rename_i c1 a h1
      split at h
      · cases h
      · rename_i c2 h2
        obtain ⟨-, -, e3, e4, -, -, -⟩ := CmdLine.newArg_spec h1
        obtain ⟨x1, x2, x3⟩ := add_sub h2
        rw [e4] at x1
        rw [e3] at x2
        have : Members c2 := by
          intro g hg
          rw [x1] at hg
          refine ⟨(hm g hg).1, fun i hi => ?_⟩
          obtain ⟨b, hb, hi⟩ := (hm g hg).2 i hi
          exact ⟨b, x2 b hb, hi⟩
        obtain ⟨y1, y2⟩ := declare_members this h
        exact ⟨y1, fun b hb => y2 b (x2 b hb)⟩
  | .xor ds :: ss, c, c', next, hm, h => by
    unfold CmdLine.declare at h
    split at h
    · cases h
    · rename_i c1 as h1
      split at h
      · cases h
      · rename_i c2 h2
        obtain ⟨-, e2, e3, e4, -, -, -⟩ := CmdLine.newArgs_spec h1
        unfold CmdLine.xorAdd at h2
        obtain ⟨x1, x2, x3⟩ := addAll_sub h2
        simp only at x1 x2
        rw [e3] at x2
        rw [e4] at x1
        have : Members c2 := by
          intro g hg
          rw [x1] at hg
          rcases List.mem_append.1 hg with hg | hg
          · refine ⟨(hm g hg).1, fun i hi => ?_⟩
            obtain ⟨b, hb, hi⟩ := (hm g hg).2 i hi
            exact ⟨b, x2 b hb, hi⟩
          · rw [List.mem_singleton.1 hg]
            refine ⟨by rw [e2]; exact List.nodup_range', fun i hi => ?_⟩
            obtain ⟨a, ha, rfl⟩ := List.mem_map.1 hi
            exact x3 a ha
        obtain ⟨y1, y2⟩ := declare_members this h
        exact ⟨y1, fun b hb => y2 b (x2 b hb)⟩

/-! ## Asking for help -/

theorem delim_none {d : Char} {s : Str} (h : d ∉ s) : CmdLine.trimFlag d s = (s, []) := by
  unfold CmdLine.trimFlag CmdLine.delimPos
  have : s.findIdx? (· = d) = none := by
    rw [List.findIdx?_eq_none_iff]
    intro x hx
    simp only [decide_eq_false_iff_not]
    rintro rfl
    exact h hx
  rw [this]
  simp

theorem no_match {a : Arg V} {n : Str} (hl : a.flag.length ≤ 1) (hn : a.name ≠ n) (h2 : 2 ≤ n.length) :
    CmdLine.argMatches a (CmdLine.nameStartString ++ n) = false := by
  unfold CmdLine.argMatches
  rw [Bool.or_eq_false_iff, Bool.and_eq_false_iff]
  refine ⟨.inl ?_, ?_⟩
  · rw [decide_eq_false_iff_not]
    intro h
    have := congrArg List.length h
    simp [CmdLine.nameStartString, CmdLine.flagStartString] at this
    omega
  · rw [decide_eq_false_iff_not]
    intro h
    exact hn (List.append_cancel_left h).symm

theorem no_combined (a : Arg V) (n : Str) : CmdLine.combinedMatch a (CmdLine.nameStartString ++ n) = none := by
  unfold CmdLine.combinedMatch
  simp [CmdLine.nameStartString, CmdLine.flagStart]

theorem passes {d : Char} {a : Arg V} {n : Str} {next : Option Str} (hu : a.unlabeled = false) (hl : a.flag.length ≤ 1)
    (hn : a.name ≠ n) (h2 : 2 ≤ n.length) (hd : d ∉ CmdLine.nameStartString ++ n) :
    CmdLine.processArg d false (CmdLine.nameStartString ++ n) next a =
      .ok ⟨false, a, CmdLine.nameStartString ++ n, false, false⟩ := by
  have hm := no_match hl hn h2
  unfold CmdLine.processArg
  rw [if_neg (by simp [hu])]
  split
  · unfold CmdLine.processValue
    rw [delim_none hd]
    simp [hm]
  · unfold CmdLine.processMulti
    rw [delim_none hd]
    simp [hm]
  · unfold CmdLine.processSwitch
    simp [hm, no_combined]
  · unfold CmdLine.processMultiSwitch
    simp [hm, no_combined]

theorem scan_visitor {d : Char} {n : Str} {b : Arg V} {st : CmdLine.Stop} {next : Option Str} (h2 : 2 ≤ n.length)
    (hd : d ∉ CmdLine.nameStartString ++ n) (hb : b.name = n) (hbu : b.unlabeled = false) (hbs : ∃ v, b.slot = .switch v)
    (hba : b.alreadySet = false) (hv : CmdLine.visit b false = .error st) : ∀ as : List (Arg V), b ∈ as →
    (∀ a ∈ as, a.flag.length ≤ 1) → as.Pairwise CmdLine.Apart →
    CmdLine.scan d false (CmdLine.nameStartString ++ n) next as = .error st := by
  intro as
  induction as with
  | nil => intro h; cases h
  | cons a as ih =>
    intro hm hl hp
    rw [List.pairwise_cons] at hp
    unfold CmdLine.scan
    rcases List.mem_cons.1 hm with rfl | hm
    · have hma : CmdLine.argMatches b (CmdLine.nameStartString ++ n) = true := by
        unfold CmdLine.argMatches
        simp [hb]
      have : CmdLine.processArg d false (CmdLine.nameStartString ++ n) next b = .error st := by
        obtain ⟨v, hs⟩ := hbs
        unfold CmdLine.processArg
        rw [if_neg (by simp [hbu]), hs]
        simp only
        unfold CmdLine.processSwitch
        simp [hma, hba, hv]
      rw [this]
    · have hap := hp.1 b hm
      rw [passes (by
          cases h : a.unlabeled
          · rfl
          · rw [hap.2.2.2 h] at hbu; cases hbu) (hl a List.mem_cons_self) (hb ▸ hap.1) h2 hd]
      simp only [Bool.false_eq_true, if_false]
      rw [ih hm (fun x hx => hl x (List.mem_cons_of_mem _ hx)) hp.2]

end Ecl.HelpFrame
