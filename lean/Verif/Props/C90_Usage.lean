import Verif.Lemmas.Usage
import Mathlib.Data.List.Nodup

/-!
# C90: help texts
-/
set_option autoImplicit false
set_option linter.unusedSimpArgs false

namespace Ecl.Props
open Ecl.Usage
open Ecl.CmdLine (Str Arg)
open Ecl.Spec

/-! ## Breaking lines -/

private theorem break_take (s : Str) (n : Nat) :
    (∃ c ∈ s.take (n + 1), c ∈ breaks) ↔ ∃ j ≤ n, isBreak (charAt s j) = true := by
  constructor
  · rintro ⟨c, hc, hb⟩
    obtain ⟨j, hj, hj'⟩ := List.mem_iff_getElem.1 hc
    simp only [List.length_take, List.getElem_take] at hj hj'
    refine ⟨j, by omega, ?_⟩
    rw [charAt, List.getElem?_eq_getElem (by omega : j < s.length), Option.getD_some, hj']
    exact (isBreak_iff c).2 hb
  · rintro ⟨j, hj, h⟩
    obtain ⟨hlt, hb⟩ := charAt_break h
    exact ⟨s[j], List.mem_take_iff_getElem.2 ⟨j, by omega, rfl⟩, hb⟩

/-- A text that does not fit is broken into lines, which end between words unless a word is longer than a
line, none longer than the width, and with no character lost or added but blanks; a text that fits is
indented.  Missing: a text that begins with a word longer than the line. -/
theorem C90_wrap_partial (width indent offset fuel : Nat) (s : Str) (hw : indent + offset < width)
    (hf : s.length ≤ fuel)
    (hb : s.length + indent ≤ width ∨ ∃ c ∈ s.take (width - indent + 1), c ∈ breaks) :
    ∃ ls, spacePrint width indent offset fuel s = .ok (some ls) ∧
      (s.length + indent ≤ width → ls = [List.replicate indent ' ' ++ s]) ∧
      (width < s.length + indent → LaidOut width indent (indent + offset) s ls) ∧
      (∀ l ∈ ls, l.length ≤ width) ∧ ls.flatten.filter (· ≠ ' ') = s.filter (· ≠ ' ') := by
  unfold spacePrint
  by_cases h : s.length + indent ≤ width
  · rw [if_neg (by omega)]
    refine ⟨_, rfl, fun _ => rfl, fun h' => by omega, ?_, ?_⟩
    · simp
      omega
    · simp [List.filter_append]
  · rw [if_pos (by omega)]
    obtain ⟨ls, h1, h2⟩ := lines_ok offset width fuel true indent s (by simpa using hw) hf
      (.inr (.inr ((break_take s _).1 (hb.resolve_left h))))
    exact ⟨ls, h1, fun h' => absurd h' h, fun _ => by simpa using h2, LaidOut.width h2, LaidOut.filter h2⟩

example : ∃ c ∈ ("a text of three lines, more or less").toList.take (14 - 3 + 1), c ∈ breaks := by decide

example : spacePrint 14 3 2 99 "a text of three lines|or more".toList =
    .ok (some ["   a text of".toList, "     three".toList, "     lines|or".toList, "     more".toList]) := by
  decide

/-- A text that begins with a word longer than the line makes the program read before the text. -/
theorem C90_fails_wrap (width indent offset fuel : Nat) (s : Str) (hw : indent < width)
    (hl : width < s.length + indent) (hb : ∀ c ∈ s.take (width - indent + 1), c ∉ breaks) :
    spacePrint width indent offset (fuel + 1) s = .ub := by
  unfold spacePrint
  rw [if_pos (by omega)]
  refine lines_ub _ _ _ _ _ (by rintro rfl; simp at hl; omega) (by omega) (fun j hj => ?_)
  by_contra h
  obtain ⟨c, hc, hc'⟩ := (break_take s (width - indent)).2 ⟨j, hj, by simpa using h⟩
  exact hb c hc hc'

private theorem usage_prefix {V : Type} (delim : Char) (prog : Str) (groups : List (List (Item V)))
    (args : List (Item V)) : ∃ t, usageText delim prog groups args = prog ++ ' ' :: t := by
  unfold usageText
  have : ∀ (gs : List (List (Item V))) (t : Str), ∃ t', gs.foldl (addGroup delim) (prog ++ [' '] ++ t) =
      prog ++ [' '] ++ t' := by
    intro gs
    induction gs with
    | nil => exact fun t => ⟨t, rfl⟩
    | cons g gs ih =>
      intro t
      have : addGroup delim (prog ++ [' '] ++ t) g = prog ++ [' '] ++ ((t ++ [' ', '{'] ++
          g.flatMap (fun i => shortID delim i ++ ['|'])).dropLast ++ ['}']) := by
        unfold addGroup
        rw [List.append_assoc (prog ++ [' ']) t, List.append_assoc (prog ++ [' ']),
          List.dropLast_append_of_ne_nil (by simp), List.append_assoc]
      rw [List.foldl_cons, this]
      exact ih _
  obtain ⟨t', ht⟩ := this groups []
  rw [List.append_nil] at ht
  rw [ht]
  exact ⟨_, by rw [List.append_assoc, List.append_assoc]; rfl⟩

/-- So does a program whose name (its path) is that long. -/
theorem C90_fails_program {V : Type} (delim : Char) (fuel : Nat) (prog : Str)
    (groups : List (List (Item V))) (args : List (Item V)) (hl : 73 ≤ prog.length)
    (hb : ∀ c ∈ prog, c ∉ breaks) : shortUsage delim (fuel + 1) prog groups args = .ub := by
  obtain ⟨t, ht⟩ := usage_prefix delim prog groups args
  unfold shortUsage
  rw [ht]
  refine C90_fails_wrap _ _ _ _ _ (by omega) (by rw [List.length_append]; omega) (fun c hc => hb c ?_)
  rw [List.take_append_of_le_length (by omega)] at hc
  exact List.mem_of_mem_take hc

/-- The usage of every other program is put out in lines of at most 75 characters, with nothing lost. -/
theorem C90_short_usage_partial {V : Type} (delim : Char) (fuel : Nat) (prog : Str)
    (groups : List (List (Item V))) (args : List (Item V)) (hl : prog.length ≤ 72)
    (hf : (usageText delim prog groups args).length ≤ fuel) :
    ∃ ls, shortUsage delim fuel prog groups args = .ok (some ls) ∧ (∀ l ∈ ls, l.length ≤ 75) ∧
      ls.flatten.filter (· ≠ ' ') = (usageText delim prog groups args).filter (· ≠ ' ') := by
  obtain ⟨t, ht⟩ := usage_prefix delim prog groups args
  obtain ⟨ls, h1, -, -, h2, h3⟩ := C90_wrap_partial 75 3 (secondLineOffset prog) fuel
    (usageText delim prog groups args) (by unfold secondLineOffset; split <;> omega) hf (.inr ⟨' ', by
      rw [ht, List.mem_take_iff_getElem]
      exact ⟨prog.length, by rw [List.length_append, List.length_cons]; omega, by simp⟩, by decide⟩)
  exact ⟨ls, h1, h2, h3⟩

example : 73 ≤ ("/home/robot/workspace/install/lib/demonstrations/a_program_with_a_long_name").toList.length ∧
    ∀ c ∈ ("/home/robot/workspace/install/lib/demonstrations/a_program_with_a_long_name").toList,
      c ∉ breaks := by decide

/-! ## What is shown -/

private theorem flatMap_bar {α : Type} (f : α → Str) (a : α) (l : List α) :
    ((a :: l).flatMap fun i => f i ++ ['|']).dropLast = List.intercalate ['|'] ((a :: l).map f) := by
  induction l generalizing a with
  | nil => simp [List.intercalate]
  | cons b l ih =>
    rw [List.flatMap_cons, List.dropLast_append_of_ne_nil (by simp), ih b]
    simp [List.intercalate, List.intersperse]

/-- The usage line: the program, the exclusive groups in braces, and the other arguments. -/
theorem C90_usage_text {V : Type} (delim : Char) (prog : Str) (groups : List (List (Item V)))
    (args : List (Item V)) (hg : ∀ g ∈ groups, g ≠ []) :
    usageText delim prog groups args = prog ++ [' '] ++
      groups.flatMap (fun g => [' ', '{'] ++ List.intercalate ['|'] (g.map (shortID delim)) ++ ['}']) ++
      (args.filter fun i => ¬ ∃ g ∈ groups, ∃ j ∈ g, j.arg.id = i.arg.id).flatMap
        (fun i => [' '] ++ shortID delim i) := by
  unfold usageText
  congr 1
  · generalize prog ++ [' '] = s
    induction groups generalizing s with
    | nil => simp
    | cons g gs ih =>
      rw [List.foldl_cons, ih (fun g h => hg g (by simp [h])), List.flatMap_cons]
      have : addGroup delim s g = s ++ ([' ', '{'] ++ List.intercalate ['|'] (g.map (shortID delim)) ++ ['}']) := by
        cases g with
        | nil => exact absurd rfl (hg [] (by simp))
        | cons a l =>
          unfold addGroup
          rw [List.dropLast_append_of_ne_nil (by simp), flatMap_bar]
          simp
      rw [this]
      simp
  · congr 1
    apply List.filter_congr
    intro i _
    rw [Bool.eq_iff_iff]
    simp [contains]

/-- If every group's members are among the arguments and no argument is in two places, every argument is
shown once. -/
theorem C90_shown {V : Type} (groups : List (List (Item V))) (args : List (Item V))
    (ha : (args.map fun i => i.arg.id).Nodup) (hg : (groups.flatten.map fun i => i.arg.id).Nodup)
    (hs : ∀ g ∈ groups, ∀ i ∈ g, i ∈ args) :
    (groups.flatten ++ args.filter fun i => ¬ ∃ g ∈ groups, ∃ j ∈ g, j.arg.id = i.arg.id).Perm args := by
  have hinj : ∀ i ∈ args, ∀ j ∈ args, i.arg.id = j.arg.id → i = j :=
    fun i hi j hj h => List.inj_on_of_nodup_map ha hi hj h
  refine (List.perm_ext_iff_of_nodup ?_ (List.Nodup.of_map _ ha)).2 fun i => ?_
  · refine List.Nodup.append (List.Nodup.of_map _ hg) ((List.Nodup.of_map _ ha).filter _) ?_
    intro i h1 h2
    obtain ⟨g, hgm, hi⟩ := List.mem_flatten.1 h1
    have := (List.mem_filter.1 h2).2
    simp only [decide_not, Bool.not_eq_eq_eq_not, Bool.not_true, decide_eq_false_iff_not] at this
    exact this ⟨g, hgm, i, hi, rfl⟩
  · rw [List.mem_append, List.mem_flatten, List.mem_filter]
    constructor
    · rintro (⟨g, h1, h2⟩ | ⟨h, -⟩)
      · exact hs g h1 i h2
      · exact h
    · intro hi
      by_cases h : ∃ g ∈ groups, ∃ j ∈ g, j.arg.id = i.arg.id
      · obtain ⟨g, h1, j, h2, h3⟩ := h
        have := hinj j (hs g h1 j h2) i hi h3
        exact .inl ⟨g, h1, this ▸ h2⟩
      · exact .inr ⟨hi, by simpa using h⟩

private def item (id : Nat) (flag name type : String) (unlabeled required : Bool) (slot : CmdLine.Slot Int) :
    Item Int :=
  ⟨{ CmdLine.construct ⟨flag.toList, name.toList, [], required, unlabeled, fun _ => .failure, none, slot⟩ id with
      required := required }, type.toList⟩

example : usageText ' ' "prog".toList
    [[item 4 "a" "alpha" "" false true (.switch false), item 5 "" "beta" "int" false true (.value 0)]]
    [item 5 "" "beta" "int" false true (.value 0), item 4 "a" "alpha" "" false true (.switch false),
      item 3 "c" "" "a|b" false false (.value 0)] =
    "prog  {-a|--beta <int>} [-c <a|b>]".toList := by decide

/-- An exclusive group without members leaves a brace that was not opened. -/
theorem C90_fails_empty_group : usageText ' ' "prog".toList [([] : List (Item Int))] [] = "prog  }".toList := by
  decide

/-- A labelled argument is shown with a flag or name that selects it, in brackets if it is optional, and
followed by the type of its value if it has one. -/
theorem C90_short {V : Type} (delim : Char) (i : Item V) (h : i.arg.unlabeled = false) :
    ∃ t v after, CmdLine.argMatches i.arg t = true ∧
      (v = [] ∨ v = [delim] ++ "<".toList ++ i.type ++ ">".toList) ∧
      ((∃ b, i.arg.slot = .switch b) ∨ (∃ b, i.arg.slot = .multiSwitch b) ↔ v = []) ∧
      shortID delim i = (if i.arg.required then t ++ v else "[".toList ++ t ++ v ++ "]".toList) ++ after ∧
      ((∃ b, i.arg.slot = .value b) ∨ (∃ b, i.arg.slot = .switch b) ↔ after = []) := by
  have hm : ∃ t, t = (if i.arg.flag ≠ [] then CmdLine.flagStartString ++ i.arg.flag
      else CmdLine.nameStartString ++ i.arg.name) ∧ CmdLine.argMatches i.arg t = true := by
    refine ⟨_, rfl, ?_⟩
    unfold CmdLine.argMatches
    split <;> simp_all
  obtain ⟨t, e, ht⟩ := hm
  cases hs : i.arg.slot with
  | value x =>
    refine ⟨t, [delim] ++ "<".toList ++ i.type ++ ">".toList, [], ht, .inr rfl, by simp, ?_, by simp⟩
    simp only [shortID, argShortID, h, hs, valueRequired, ← e]
    cases i.arg.required <;> simp
  | multi x =>
    refine ⟨t, [delim] ++ "<".toList ++ i.type ++ ">".toList, " ... ".toList, ht, .inr rfl, by simp, ?_,
      by simp⟩
    simp only [shortID, argShortID, h, hs, valueRequired, ← e]
    cases i.arg.required <;> simp
  | switch x =>
    refine ⟨t, [], [], ht, .inl rfl, by simp, ?_, by simp⟩
    simp only [shortID, argShortID, h, hs, valueRequired, ← e]
    cases i.arg.required <;> simp
  | multiSwitch x =>
    refine ⟨t, [], " ... val".toList, ht, .inl rfl, by simp, ?_, by simp⟩
    simp only [shortID, argShortID, h, hs, valueRequired, ← e]
    cases i.arg.required <;> simp

/-- The long text shows every way to select a labelled argument. -/
theorem C90_long {V : Type} (i : Item V) (h : i.arg.unlabeled = false) (t : Str)
    (ht : CmdLine.argMatches i.arg t = true) : t <:+: longID i := by
  have key : ∀ v, t <:+: argLongID i.arg v := by
    intro v
    unfold CmdLine.argMatches at ht
    simp only [Bool.or_eq_true, Bool.and_eq_true, decide_eq_true_eq] at ht
    simp only [argLongID]
    rcases ht with ⟨rfl, hf⟩ | rfl
    · rw [if_pos hf]
      refine ⟨[], (if valueRequired i.arg then [' ', '<'] ++ v ++ ['>'] else []) ++ [',', ' ', ' '] ++
        CmdLine.nameStartString ++ i.arg.name ++ (if valueRequired i.arg then [' ', '<'] ++ v ++ ['>'] else []), ?_⟩
      simp
    · refine ⟨(if i.arg.flag ≠ [] then CmdLine.flagStartString ++ i.arg.flag ++
        (if valueRequired i.arg then [' ', '<'] ++ v ++ ['>'] else []) ++ [',', ' ', ' '] else []),
        (if valueRequired i.arg then [' ', '<'] ++ v ++ ['>'] else []), ?_⟩
      simp
  have app : ∀ a b : Str, t <:+: a → t <:+: a ++ b := fun a b h => h.trans (List.infix_append' [] a b)
  unfold longID
  rw [h]
  cases hs : i.arg.slot with
  | value x => simpa [hs] using key i.type
  | multi x => simpa [hs] using app _ _ (key i.type)
  | switch x => simpa [hs] using key ['v', 'a', 'l']
  | multiSwitch x =>
    simp only [hs, Bool.false_eq_true, if_false]
    exact app _ _ (app _ _ (key ['v', 'a', 'l']))

example : CmdLine.argMatches (item 3 "c" "count" "int" false false (.value 0)).arg "--count".toList = true := by
  decide

/-- A switch that counts is shown with a value it does not take. -/
theorem C90_fails_multi_switch :
    shortID ' ' (item 3 "v" "verbose" "" false false (.multiSwitch 0)) = "[-v] ... val".toList ∧
      (match CmdLine.declare (V := Int) (CmdLine.new ' ' true)
          [.one ⟨['v'], "verbose".toList, [], false, false, fun _ => .failure, none, .multiSwitch 0⟩] 3 with
        | .error _ => none
        | .ok c => match CmdLine.parse c ["-v".toList, "val".toList] with
          | .error e => some e
          | .ok _ => none) = some (.fail .noMatch) := by
  decide

/-- An unlabeled argument looks the same whether it is required or not. -/
theorem C90_fails_optional {V : Type} (delim : Char) (i : Item V) (h : i.arg.unlabeled = true) (r : Bool) :
    shortID delim { i with arg := { i.arg with required := r } } = shortID delim i := by
  unfold shortID
  simp [h]

/-- The long text of an unlabeled argument is the description of its value in angle brackets, and says whether
it may come more than once. -/
theorem C90_long_unlabeled {V : Type} (i : Item V) (h : i.arg.unlabeled = true) :
    ∃ rest, longID i = '<' :: (i.type ++ '>' :: rest) ∧
      rest = (match i.arg.slot with | .multi _ => "  (accepted multiple times)".toList | _ => []) := by
  unfold longID
  rw [h]
  cases hs : i.arg.slot <;> simp

example : (item 3 "" "file" "path" true true (.value 0)).arg.unlabeled = true := by decide

/-- The values a constraint allows are shown between bars. -/
theorem C90_constraint (vs : List Str) : constraintText vs = List.intercalate ['|'] vs := by
  cases vs with
  | nil => rfl
  | cons v vs =>
    show v ++ vs.flatMap (fun v => ['|'] ++ v) = _
    induction vs generalizing v with
    | nil => simp [List.intercalate]
    | cons w vs ih =>
      rw [List.flatMap_cons, List.append_assoc, ih w]
      simp [List.intercalate, List.intersperse]

/-! ## DocBook -/

/-- In DocBook every `<` and `>` of an argument's text is escaped and every bracket left out. -/
theorem C90_docbook (id : Str) (fuel : Nat) (hf : 16 * id.length ≤ fuel) :
    ∃ t, docId fuel id = some t ∧
      t = id.flatMap (fun c => if c = '<' then "&lt;".toList else if c = '>' then "&gt;".toList
        else if c = '[' ∨ c = ']' then [] else [c]) ∧
      '<' ∉ t ∧ '>' ∉ t ∧ '[' ∉ t ∧ ']' ∉ t := by
  have hlen : ∀ (l : Str) (g : Char → Str) (k : Nat), (∀ c, (g c).length ≤ k) →
      (l.flatMap g).length ≤ k * l.length := by
    intro l g k hg
    induction l with
    | nil => simp
    | cons c l ih =>
      rw [List.flatMap_cons, List.length_append, List.length_cons]
      have := hg c
      rw [Nat.mul_succ]
      omega
  have hite : ∀ (r : Char) (x : Str) (c : Char), x.length ≤ 4 → (if c = r then x else [c]).length ≤ 4 := by
    intro r x c h
    split
    · exact h
    · simp
  have l1 := hlen id (fun c => if c = '<' then ['&', 'l', 't', ';'] else [c]) 4
    (fun c => hite _ _ c (by simp))
  have l2 := hlen (id.flatMap fun c => if c = '<' then ['&', 'l', 't', ';'] else [c])
    (fun c => if c = '>' then ['&', 'g', 't', ';'] else [c]) 4 (fun c => hite _ _ c (by simp))
  have l3 := hlen ((id.flatMap fun c => if c = '<' then ['&', 'l', 't', ';'] else [c]).flatMap
    fun c => if c = '>' then ['&', 'g', 't', ';'] else [c])
    (fun c => if c = '[' then [] else [c]) 1 (fun c => by split <;> simp)
  have hc : ∀ (l : Str) (c : Char), l.length ≤ fuel → l.count c ≤ fuel :=
    fun l c h => Nat.le_trans List.count_le_length h
  refine ⟨_, ?_, rfl, ?_⟩
  · unfold docId
    rw [substitute_eq '<' _ (by decide) fuel id (hc _ _ (by omega))]
    simp only [Option.bind_eq_bind, Option.bind_some]
    rw [substitute_eq '>' _ (by decide) fuel _ (hc _ _ (by omega))]
    simp only [Option.bind_some]
    rw [remove_eq_substitute, substitute_eq '[' _ (by decide) fuel _ (hc _ _ (by omega))]
    simp only [Option.bind_some]
    rw [remove_eq_substitute, substitute_eq ']' _ (by decide) fuel _ (hc _ _ (by omega))]
    rw [List.flatMap_assoc, List.flatMap_assoc, List.flatMap_assoc]
    congr 2
    funext c
    by_cases h1 : c = '<'
    · subst h1; decide
    by_cases h2 : c = '>'
    · subst h2; decide
    by_cases h3 : c = '['
    · subst h3; decide
    by_cases h4 : c = ']'
    · subst h4; decide
    simp [h1, h2, h3, h4]
  · have hm : ∀ r : Char, r ∈ ['<', '>', '[', ']'] → r ∉ id.flatMap (fun c =>
        if c = '<' then "&lt;".toList else if c = '>' then "&gt;".toList
        else if c = '[' ∨ c = ']' then [] else [c]) := by
      intro r hr h
      obtain ⟨c, -, h⟩ := List.mem_flatMap.1 h
      by_cases h1 : c = '<'
      · rw [if_pos h1] at h; exact (by decide : ∀ r ∈ ['<', '>', '[', ']'], r ∉ "&lt;".toList) r hr h
      by_cases h2 : c = '>'
      · rw [if_neg h1, if_pos h2] at h
        exact (by decide : ∀ r ∈ ['<', '>', '[', ']'], r ∉ "&gt;".toList) r hr h
      rw [if_neg h1, if_neg h2] at h
      by_cases h3 : c = '[' ∨ c = ']'
      · rw [if_pos h3] at h; cases h
      · rw [if_neg h3, List.mem_singleton] at h
        subst h
        simp at hr
        tauto
    exact ⟨hm _ (by simp), hm _ (by simp), hm _ (by simp), hm _ (by simp)⟩

example : docId 999 "[-c <int>]".toList = some "-c &lt;int&gt;".toList := by decide

/-- The ampersand is not escaped, and brackets that belong to a name or type are lost. -/
theorem C90_fails_docbook (fuel : Nat) : docId fuel "a&b".toList = some "a&b".toList ∧
    docId 99 "<x[2]>".toList = docId 99 "<x2>".toList := by
  refine ⟨?_, by decide⟩
  have hs : ∀ (r : Char) (x : Str) (s : Str), s.findIdx? (· == r) = none → substitute r x fuel s = some s := by
    intro r x s h
    unfold substitute
    rw [h]
  have hr : ∀ (r : Char) (s : Str), s.findIdx? (· == r) = none → remove r fuel s = some s := by
    intro r s h
    unfold remove
    rw [h]
  unfold docId
  rw [hs _ _ _ (by decide)]
  simp only [Option.bind_eq_bind, Option.bind_some]
  rw [hs _ _ _ (by decide)]
  simp only [Option.bind_some]
  rw [hr _ _ (by decide)]
  simp only [Option.bind_some]
  exact hr _ _ (by decide)

/-- Replacing a character by a text that holds it never ends. -/
theorem C90_fails_substitute (r : Char) (x : Str) (hx : r ∈ x) (fuel : Nat) (s : Str) (hs : r ∈ s) :
    substitute r x fuel s = none := by
  induction fuel generalizing s with
  | zero =>
    unfold substitute
    cases h : s.findIdx? (· == r) with
    | none =>
      rw [List.findIdx?_eq_none_iff] at h
      have := h r hs
      simp at this
    | some p => rfl
  | succ fuel ih =>
    unfold substitute
    cases h : s.findIdx? (· == r) with
    | none =>
      rw [List.findIdx?_eq_none_iff] at h
      have := h r hs
      simp at this
    | some p => exact ih _ (by simp [hx])

/-- In DocBook the lines `OR` are counted by the groups instead of the members: none stands between the
two members of the only group, and with three groups one stands after the last member. -/
theorem C90_fails_or {V : Type} (a b : Item V) :
    docGroup 1 [a, b] = [some a, some b] ∧ docGroup 3 [a, b] = [some a, none, some b, none] := by
  constructor <;> rfl

/-- They are right in a group that has as many members as there are groups. -/
theorem C90_or_partial {V : Type} (g : List (Item V)) :
    docGroup g.length g = (g.map some).intersperse none := by
  have key : ∀ (g : List (Item V)) (k n : Nat), n = k + g.length →
      ((g.zipIdx k).flatMap fun p => if p.2 < n - 1 then [some p.1, none] else [some p.1]) =
        (g.map some).intersperse none := by
    intro g
    induction g with
    | nil => intros; rfl
    | cons a g ih =>
      intro k n hn
      rw [List.zipIdx_cons, List.flatMap_cons, ih (k + 1) n (by simp at hn; omega)]
      cases g with
      | nil =>
        simp at hn
        rw [if_neg (by simp; omega)]
        rfl
      | cons b g =>
        simp at hn
        rw [if_pos (by simp; omega)]
        simp [List.intersperse]
  exact key g 0 g.length (by simp)

example (a b : Item Int) : docGroup 2 [a, b] = [some a, none, some b] := C90_or_partial [a, b]

/-- Of the other arguments exactly those that collect values are marked as repeatable. -/
theorem C90_repeat_partial {V : Type} (a : CmdLine.Arg V) (h : ∀ n, a.slot ≠ .multiSwitch n) :
    docRepeat a = true ↔ ∃ vs, a.slot = .multi vs := by
  unfold docRepeat
  cases hs : a.slot with
  | multiSwitch n => exact absurd hs (h n)
  | _ => simp

example : docRepeat (item 3 "f" "files" "file" false false (.multi [])).arg = true :=
  (C90_repeat_partial _ (by intro n h; cases h)).2 ⟨_, rfl⟩

/-- A switch that counts is marked as not repeatable. -/
theorem C90_fails_repeat : docRepeat (item 3 "v" "verbose" "" false false (.multiSwitch 0)).arg = false := rfl

end Ecl.Props
