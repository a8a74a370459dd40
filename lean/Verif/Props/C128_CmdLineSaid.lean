import Verif.Lemmas.CmdLineSaid

/-!
# C128: what a rejected command line is told

A program declares its arguments with `declare (new d hv) prog 3`.  `descr` gives the descriptions of the constraints.
-/
set_option autoImplicit false

namespace Ecl.Props.C128
open Ecl.CmdLine (Str Arg Err T)
open Ecl.CmdLineSaid Ecl.Spec.CmdLineSaid

theorem label_ne (flag name : Str) : label flag name ≠ "undefined".toList := by
  intro h
  have h1 : '(' ∈ label flag name := by unfold label; simp
  rw [h] at h1
  revert h1
  decide

/-- The strings of a run of calls and reads, each read being of the last call. -/
theorem what_last (xs : List Exc) : ∀ (is : List Nat) (s : What), (∀ i ∈ is, i < xs.length) →
    whatRun xs s (is.zipIdx.flatMap fun p => [WhatOp.what p.1, WhatOp.read (s.calls + p.2)]) =
      some (is.flatMap fun i => [none, (xs[i]?).map fun x => x.id ++ " -- ".toList ++ x.text]) := by
  intro is
  induction is with
  | nil => intro s _; rfl
  | cons i is ih =>
    intro s h
    have hi := h i List.mem_cons_self
    have := ih ⟨xs[i].id ++ " -- ".toList ++ xs[i].text, s.calls + 1⟩ fun j hj => h j (List.mem_cons_of_mem _ hj)
    rw [List.zipIdx_cons, List.flatMap_cons, List.flatMap_cons]
    simp only [List.cons_append, List.nil_append, whatRun, whatStep, List.getElem?_eq_getElem hi, Nat.add_zero, if_true,
      Option.map_some]
    rw [List.zipIdx_succ, List.flatMap_map]
    have e : (is.zipIdx.flatMap fun p => [WhatOp.what p.1, WhatOp.read (s.calls + (p.2 + 1))]) =
        is.zipIdx.flatMap fun p => [WhatOp.what p.1, WhatOp.read (s.calls + 1 + p.2)] := by
      refine List.flatMap_congr fun p _ => ?_
      rw [Nat.add_comm p.2 1, Nat.add_assoc]
    simp only [Nat.zero_add, e, this, Option.map_some]

end Ecl.Props.C128

namespace Ecl.Props
open Ecl.CmdLine (Str Arg Err T Stmt declare new extractInt)
open Ecl.CmdLineSaid Ecl.Spec.CmdLineSaid

variable {V : Type}

/-- **C128.** The texts do not change which command lines are accepted, with which values, and how the others end. -/
theorem C128_same (descr : Nat → Str) (c : T V) (argv : List Str) :
    (parse descr c argv).mapError (fun
      | .said e _ => .fail e
      | .help => .help
      | .version => .version
      | .ub => .ub) = CmdLine.parse c argv := by
  have h := loop_forget descr c.xors c.delim argv false c.args c.ignoreRest 0
  unfold parse CmdLine.parse
  rw [← h]
  cases loop descr c.xors c.delim false argv c.args c.ignoreRest 0 with
  | error e => cases e <;> rfl
  | ok r =>
    obtain ⟨args, ign, count⟩ := r
    by_cases h1 : count < c.numRequired
    · simp [Except.mapError, h1]
    · by_cases h2 : count > c.numRequired
      · simp [Except.mapError, h1, h2]
      · simp [Except.mapError, h1, h2]

/-- **C128.** The message of a rejected command line is one of three: about a declared argument that some word of the
command line mentions, naming it, with the sentence of the error, in which the quoted value stands on the command line;
about a word of the command line, in which letters may be starred; or about the line as a whole. -/
theorem C128_names_partial {d : Char} {hv : Bool} {prog : List (Stmt V)} {c : T V}
    (hc : declare (new d hv) prog 3 = .ok c) (hf : ∀ a ∈ c.args, '*' ∉ a.flag) {argv : List Str}
    (hz : ∀ w ∈ argv, '\x00' ∉ w) (descr : Nat → Str) {e : Err} {x : Exc}
    (h : parse descr c argv = .error (.said e x)) :
    (e ∈ ofArgument ∧ ∃ a ∈ c.args, ∃ w ∈ argv, Mentions a w ∧ x.id = label a.flag a.name ∧
      ∃ val, x.text = sentence val (descr a.id) e ∧ (e ∈ quoting → Stands d argv val)) ∨
    (e = .noMatch ∧ x.text = sentence [] [] .noMatch ∧ ∃ w ∈ argv, Starred w x.id) ∨
    ((e = .requiredMissing ∨ e = .tooManyArgs) ∧ x.text = sentence [] [] e ∧ x.id = "undefined".toList) := by
  obtain ⟨⟨n, hd⟩, _, hdel⟩ := CmdLine.declared hc
  have hp : ∀ a ∈ c.args, Plain a := fun a ha => ⟨hf a ha, (hd.good a ha).flagLen, (hd.good a ha).sane⟩
  unfold parse at h
  cases hl : loop descr c.xors c.delim false argv c.args c.ignoreRest 0 with
  | error st =>
    rw [hl] at h
    cases h
    rcases loop_said hz argv false c.args c.ignoreRest 0 e x (fun _ h => h) hp hl with h1 | h1
    · rw [hdel] at h1
      exact .inl h1
    · exact .inr (.inl h1)
  | ok r =>
    rw [hl] at h
    obtain ⟨args, ign, count⟩ := r
    simp only at h
    split at h
    · cases h; exact .inr (.inr ⟨.inl rfl, rfl, rfl⟩)
    · split at h
      · cases h; exact .inr (.inr ⟨.inr rfl, rfl, rfl⟩)
      · cases h

/-- **C128.** What is printed of it: the name of the argument or the word, and under it the sentence. -/
theorem C128_printed_partial {d : Char} {hv : Bool} {prog : List (Stmt V)} {c : T V}
    (hc : declare (new d hv) prog 3 = .ok c) (hf : ∀ a ∈ c.args, '*' ∉ a.flag) {argv : List Str}
    (hz : ∀ w ∈ argv, '\x00' ∉ w) (hu : "undefined".toList ∉ argv) (descr : Nat → Str) {e : Err} {x : Exc}
    (h : parse descr c argv = .error (.said e x)) :
    (∃ a ∈ c.args, ∃ w ∈ argv, Mentions a w ∧ ∃ val, (e ∈ quoting → Stands d argv val) ∧
      errorLines x = ["PARSE ERROR: Argument: ".toList ++ label a.flag a.name,
        "             ".toList ++ sentence val (descr a.id) e, []]) ∨
    (∃ w ∈ argv, ∃ t, Starred w t ∧
      errorLines x = ["PARSE ERROR: Argument: ".toList ++ t, "             Couldn't find match for argument".toList, []]) ∨
    errorLines x = ["PARSE ERROR:  ".toList, "             One or more required arguments missing!".toList, []] ∨
    errorLines x = ["PARSE ERROR:  ".toList, "             Too many arguments!".toList, []] := by
  rcases C128_names_partial hc hf hz descr h with ⟨_, a, ha, w, hw, hm, h1, val, h2, h3⟩ | ⟨_, h2, w, hw, h1⟩ | ⟨he, h2, h1⟩
  · refine .inl ⟨a, ha, w, hw, hm, val, h3, ?_⟩
    unfold errorLines argId
    rw [h1, if_neg (C128.label_ne _ _), h2]
    rfl
  · refine .inr (.inl ⟨w, hw, x.id, h1, ?_⟩)
    have hne : x.id ≠ "undefined".toList := by
      intro he
      rw [he] at h1
      have := star_noblanks h1 (by decide)
      exact hu (this ▸ hw)
    unfold errorLines argId
    rw [if_neg hne, h2]
    rfl
  · rcases he with rfl | rfl
    · refine .inr (.inr (.inl ?_))
      unfold errorLines argId
      rw [h1, h2]
      rfl
    · refine .inr (.inr (.inr ?_))
      unfold errorLines argId
      rw [h1, h2]
      rfl

/-- **C128.** `what()` of the exceptions of a program shows the name and the sentence, as long as each text is used
before the next call of `what()`. -/
theorem C128_what_partial (xs : List Exc) (is : List Nat) (h : ∀ i ∈ is, i < xs.length) :
    whatRun xs ⟨[], 0⟩ (is.zipIdx.flatMap fun p => [WhatOp.what p.1, WhatOp.read p.2]) =
      some (is.flatMap fun i => [none, (xs[i]?).map fun x => x.id ++ " -- ".toList ++ x.text]) := by
  have := C128.what_last xs is ⟨[], 0⟩ h
  simpa using this

/-- **C128 fails.** A text of `what()` that is used after `what()` of another exception — or the same one — is not
there any more. -/
theorem C128_fails_what (xs : List Exc) (i j : Nat) : whatRun xs ⟨[], 0⟩ [.what i, .what j, .read 0] = none := by
  simp only [whatRun, whatStep]
  cases xs[i]? with
  | none => rfl
  | some x =>
    cases xs[j]? with
    | none => rfl
    | some y => simp

namespace C128
/-- A switch `-v`, an integer `-n` and an unlabeled integer. -/
def prog : List (Stmt Int) :=
  [.one ⟨['v'], "verbose".toList, [], false, false, extractInt, none, .switch false⟩,
   .one ⟨['n'], "number".toList, [], false, false, extractInt, some (fun v => decide (v < 10)), .value 7⟩]

def unlabeled : List (Stmt Int) :=
  [.one ⟨[], "count".toList, [], true, true, extractInt, none, .value 7⟩]

/-- The descriptions of the constraints. -/
def below : Nat → Str := fun _ => "below 10".toList
end C128

/-- **C128 fails.** The name of a word that no argument accepts is not printed if the word is `undefined`. -/
theorem C128_fails_undefined : ∃ c : T Int, declare (new ' ' true) C128.prog 3 = .ok c ∧
    ∃ x, parse C128.below c ["undefined".toList] = .error (.said .noMatch x) ∧
      errorLines x = ["PARSE ERROR:  ".toList, "             Couldn't find match for argument".toList, []] :=
  ⟨_, rfl, _, rfl, rfl⟩

/-- **C128 fails.** The word named by a message need not be on the command line: `-vq`, with a switch `-v` and no
`-q`, is said not to match as `-*q`. -/
theorem C128_fails_starred : ∃ c : T Int, declare (new ' ' true) C128.prog 3 = .ok c ∧
    ∃ x, parse C128.below c ["-vq".toList] = .error (.said .noMatch x) ∧ x.id = "-*q".toList ∧
      x.id ∉ ["-vq".toList] :=
  ⟨_, rfl, _, rfl, rfl, by decide⟩

/-- **C128 fails.** The name in a message need not be one the argument can be given by: an unlabeled argument is named
as `--count`, and the word `--count` is read as its value. -/
theorem C128_fails_unlabeled : ∃ c : T Int, declare (new ' ' true) C128.unlabeled 3 = .ok c ∧
    (∃ x, parse C128.below c ["x".toList] = .error (.said .unreadable x) ∧ x.id = "(--count)".toList) ∧
    ∃ x, parse C128.below c ["--count".toList, "3".toList] = .error (.said .unreadable x) ∧
      x.text = "Couldn't read argument value from string '--count'".toList :=
  ⟨_, rfl, ⟨_, rfl, rfl⟩, _, rfl, rfl⟩

/-- A value that is too large, named and quoted. -/
example : ∃ c : T Int, declare (new ' ' true) C128.prog 3 = .ok c ∧ (∀ a ∈ c.args, '*' ∉ a.flag) ∧
    (∀ w ∈ ["-v".toList, "--number".toList, "12".toList], '\x00' ∉ w) ∧
    "undefined".toList ∉ ["-v".toList, "--number".toList, "12".toList] ∧
    ∃ x, parse C128.below c ["-v".toList, "--number".toList, "12".toList] = .error (.said .constraint x) ∧
      errorLines x = ["PARSE ERROR: Argument: -n (--number)".toList,
        "             Value '12' does not meet constraint: below 10".toList, []] := by
  refine ⟨_, rfl, by decide, by decide, by decide, _, rfl, rfl⟩

/-- A line that is accepted. -/
example : ∃ c : T Int, declare (new ' ' true) C128.prog 3 = .ok c ∧
    (match parse C128.below c ["-v".toList, "-n".toList, "2".toList] with | .ok _ => true | .error _ => false) = true :=
  ⟨_, rfl, rfl⟩

example : Starred "-vq".toList "-*q".toList ∧ ¬Starred "--v".toList "--*".toList := by
  refine ⟨⟨rfl, .cons (.inl rfl) (.cons (.inr rfl) (.cons (.inl rfl) .nil)), by decide⟩, fun h => ?_⟩
  have := h.2.2 (.inr (by decide))
  revert this
  decide

example : whatRun [⟨['t'], ['a'], []⟩, ⟨['u'], ['b'], []⟩] ⟨[], 0⟩ [.what 1, .read 0, .what 0, .read 1] =
    some [none, some "b -- u".toList, none, some "a -- t".toList] := rfl

end Ecl.Props
