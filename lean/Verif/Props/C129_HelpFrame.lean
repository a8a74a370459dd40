import Verif.Lemmas.HelpFrame

/-!
# C129: what `--help`, `--version` and rejected command lines print

A program declares its arguments with `declare (new d hv) prog 3` and calls `run` with all words of the command line.
`fuel` bounds the number of lines of a paragraph; any number from the length of its text on will do.
-/
set_option autoImplicit false

namespace Ecl.Props
open Ecl.CmdLine (Str Arg T Stmt declare new extractInt)
open Ecl.Usage (Item longID usageText secondLineOffset contains)
open Ecl.HelpFrame Ecl.Spec.HelpFrame Ecl.Spec
open Ecl.CmdLineSaid (errorLines)

variable {V : Type}

/-- **C129.** The help of any command line object shows how to call the program, then each exclusive group, then the
other arguments, each with its spellings and description, then the message — unless one of these texts begins with a
word longer than the line; then it is undefined. -/
theorem C129_usage (fuel : Nat) (c : Cmd V) (doc : List Para)
    (hdoc : doc = helpDoc (secondLineOffset c.prog) (usageText c.delim c.prog c.groups c.args)
      (c.groups.map fun g => g.map fun i => ⟨longID i, CmdLine.getDescription i.arg⟩)
      ((c.args.filter fun i => ¬∃ g ∈ c.groups, ∃ j ∈ g, j.arg.id = i.arg.id).map
        fun i => ⟨longID i, CmdLine.getDescription i.arg⟩) c.message)
    (hf : ∀ i o s, Para.text i o s ∈ doc → s.length ≤ fuel) :
    ((∀ p ∈ doc, Breakable p) → ∃ ls, usage fuel c = .ok (some ls) ∧ Shows doc ls) ∧
    ((∃ p ∈ doc, ¬Breakable p) → usage fuel c = .ub) := by
  have e : doc = docOf c := by
    rw [hdoc]
    unfold docOf toEntry
    congr 2
    apply List.filter_congr
    intro i _
    rw [Bool.eq_iff_iff]
    simp [contains]
  rw [e] at hf ⊢
  exact decides_usage fuel c hf

private theorem find_id {args : List (Arg V)} (h : args.Pairwise CmdLine.Apart) {a : Arg V} (ha : a ∈ args) :
    args.find? (fun b => decide (b.id = a.id)) = some a := by
  cases hf : args.find? (fun b => decide (b.id = a.id)) with
  | none => simpa using List.find?_eq_none.1 hf a ha
  | some b =>
    have hb := List.mem_of_find?_eq_some hf
    have hi : b.id = a.id := by simpa using List.find?_some hf
    rw [CmdLine.eq_of_id (h.imp fun h => h.2.1) hb ha hi]

/-- **C129.** In the help of a declared program every argument has exactly one place. -/
theorem C129_once {d : Char} {hv : Bool} {prog : List (Stmt V)} {c : T V} (hc : declare (new d hv) prog 3 = .ok c)
    (name version message : Str) (help : Bool) (type : Nat → Str) :
    let v := view name version message help type c
    (v.groups.flatten ++ v.args.filter fun i => ¬∃ g ∈ v.groups, ∃ j ∈ g, j.arg.id = i.arg.id).Perm v.args ∧
      v.args.map Item.arg = c.args := by
  obtain ⟨⟨n, hd⟩, hx, -⟩ := CmdLine.declared hc
  obtain ⟨hm, -⟩ := declare_members (c := new d hv) (fun g hg => by cases hg) hc
  have hids : ∀ l : List Nat, (∀ i ∈ l, ∃ a ∈ c.args, a.id = i) →
      (l.filterMap fun id => (c.args.find? fun a => decide (a.id = id)).map fun a => (⟨a, type a.id⟩ : Item V)).map
        (fun i => i.arg.id) = l := by
    intro l
    induction l with
    | nil => intro _; rfl
    | cons i l ih =>
      intro h
      obtain ⟨a, ha, rfl⟩ := h i List.mem_cons_self
      rw [List.filterMap_cons, find_id hd.apart ha]
      simp only [Option.map_some, List.map_cons]
      rw [ih fun j hj => h j (List.mem_cons_of_mem _ hj)]
  refine ⟨C90_shown _ _ ?_ ?_ ?_, ?_⟩
  · show ((c.args.map fun a => (⟨a, type a.id⟩ : Item V)).map fun i => i.arg.id).Nodup
    rw [List.map_map]
    exact List.pairwise_map.2 (hd.apart.imp fun h => h.2.1)
  · show ((c.xors.map fun g => g.filterMap fun id =>
      (c.args.find? fun a => decide (a.id = id)).map fun a => (⟨a, type a.id⟩ : Item V)).flatten.map fun i => i.arg.id).Nodup
    rw [List.map_flatten, List.map_map]
    have : c.xors.map ((List.map fun i : Item V => i.arg.id) ∘ fun g => g.filterMap fun id =>
        (c.args.find? fun a => decide (a.id = id)).map fun a => (⟨a, type a.id⟩ : Item V)) = c.xors := by
      conv_rhs => rw [← List.map_id c.xors]
      refine List.map_congr_left fun g hg => ?_
      exact hids g (hm g hg).2
    rw [this, List.nodup_flatten]
    exact ⟨fun g hg => (hm g hg).1, hx.imp fun h x hx hy => h x hx hy⟩
  · intro g hg i hi
    obtain ⟨g', _, rfl⟩ := List.mem_map.1 hg
    obtain ⟨id, _, hi⟩ := List.mem_filterMap.1 hi
    cases hf : c.args.find? fun a => decide (a.id = id) with
    | none => rw [hf] at hi; cases hi
    | some a =>
      rw [hf] at hi
      cases hi
      exact List.mem_map_of_mem (List.mem_of_find?_eq_some hf)
  · show (c.args.map fun a => (⟨a, type a.id⟩ : Item V)).map Item.arg = c.args
    rw [List.map_map]
    exact List.map_id _

private theorem said_forget (descr : Nat → Str) (c : T V) (argv : List Str) :
    (CmdLineSaid.parse descr c argv).mapError CmdLineSaid.forget = CmdLine.parse c argv := by
  have hl := CmdLineSaid.loop_forget descr c.xors c.delim argv false c.args c.ignoreRest 0
  unfold CmdLineSaid.parse CmdLine.parse
  rw [← hl]
  cases CmdLineSaid.loop descr c.xors c.delim false argv c.args c.ignoreRest 0 with
  | error e => rfl
  | ok r =>
    obtain ⟨args, ign, count⟩ := r
    by_cases h1 : count < c.numRequired
    · simp [Except.mapError, h1, CmdLineSaid.forget]
    · by_cases h2 : count > c.numRequired
      · simp [Except.mapError, h1, h2, CmdLineSaid.forget]
      · simp [Except.mapError, h1, h2]

private theorem asks {d : Char} {prog : List (Stmt V)} {c : T V} (hc : declare (new d true) prog 3 = .ok c)
    (descr : Nat → Str) {n : Str} (h2 : 2 ≤ n.length) (hd : d ∉ "--".toList ++ n) {b : Arg V} (hb : b ∈ (new d true : T V).args)
    (hn : b.name = n) (hu : b.unlabeled = false) (hs : ∃ v, b.slot = .switch v) (ha : b.alreadySet = false)
    {st : CmdLine.Stop} (hv : CmdLine.visit b false = .error st) (more : List Str) :
    (CmdLineSaid.parse descr c (("--".toList ++ n) :: more)).mapError CmdLineSaid.forget = .error st := by
  obtain ⟨⟨k, hi⟩, -, hdel⟩ := CmdLine.declared hc
  obtain ⟨-, hsub⟩ := declare_members (c := new d true) (fun g hg => by cases hg) hc
  have h := scan_visitor (next := more.head?) h2 hd hn hu hs ha hv c.args (hsub b hb) (fun a h => (hi.good a h).flagLen) hi.apart
  have hl := CmdLineSaid.loop_forget descr c.xors c.delim (("--".toList ++ n) :: more) false c.args c.ignoreRest 0
  have : CmdLine.loop c.xors c.delim false (("--".toList ++ n) :: more) c.args c.ignoreRest 0 = .error st := by
    unfold CmdLine.loop
    rw [hi.ignoreRest, hdel]
    rw [show "--".toList ++ n = CmdLine.nameStartString ++ n from rfl, h]
  rw [this] at hl
  unfold CmdLineSaid.parse
  cases hr : CmdLineSaid.loop descr c.xors c.delim false (("--".toList ++ n) :: more) c.args c.ignoreRest 0 with
  | error e => rw [hr] at hl; simpa [Except.mapError] using hl
  | ok r => rw [hr] at hl; cases hl

private theorem forget_help {e : CmdLineSaid.End} {st : CmdLine.Stop} {r : Except CmdLineSaid.End (T V)}
    (h : r.mapError CmdLineSaid.forget = .error st) (he : CmdLineSaid.forget e = st)
    (hs : ∀ x, st ≠ .fail x) : r = .error e := by
  cases r with
  | ok c => cases h
  | error e' =>
    have h : CmdLineSaid.forget e' = st := by simpa [Except.mapError] using h
    subst he
    cases e' with
    | said a b => exact absurd h.symm (hs a)
    | help => cases e <;> first | rfl | cases h
    | version => cases e <;> first | rfl | cases h
    | ub => cases e <;> first | rfl | cases h

/-- **C129.** `--help` as the first word of a line ends the program with status 0 and the help on the standard output,
whatever words follow. -/
theorem C129_help_partial {d : Char} {prog : List (Stmt V)} {c : T V} (hc : declare (new d true) prog 3 = .ok c)
    (hd : d ∉ "--help".toList) (fuel : Nat) (name version message : Str) (type descr : Nat → Str) (doc : List Para)
    (more : List Str)
    (hdoc : doc = let v := view name version message true type c
      helpDoc (secondLineOffset name) (usageText d name v.groups v.args)
        (v.groups.map fun g => g.map fun i => ⟨longID i, CmdLine.getDescription i.arg⟩)
        ((v.args.filter fun i => ¬∃ g ∈ v.groups, ∃ j ∈ g, j.arg.id = i.arg.id).map
          fun i => ⟨longID i, CmdLine.getDescription i.arg⟩) message)
    (hf : ∀ i o s, Para.text i o s ∈ doc → s.length ≤ fuel) (hb : ∀ p ∈ doc, Breakable p) :
    ∃ ls, run fuel version message true type descr c (name :: "--help".toList :: more) =
      .ok (some (.exits 0 ⟨ls, []⟩)) ∧ Shows doc ls := by
  have hp := forget_help (e := .help) (asks hc descr (n := "help".toList) (by decide) hd
    (b := CmdLine.builtin 0 ['h'] "help".toList "Displays usage information and exits.".toList .help)
    (by simp [new]) rfl rfl ⟨false, rfl⟩ rfl (st := .help) rfl more) rfl (fun x h => by cases h)
  obtain ⟨-, -, hdel⟩ := CmdLine.declared hc
  have hdoc' := hdoc
  rw [← hdel] at hdoc'
  obtain ⟨ls, h1, h2⟩ := (C129_usage fuel (view name version message true type c) doc hdoc' hf).1 hb
  refine ⟨ls, ?_, h2⟩
  unfold run
  dsimp only
  have hp : CmdLineSaid.parse descr c ("--help".toList :: more) = .error .help := hp
  rw [hp]
  simp only [h1, Option.map_some]

/-- **C129.** `--version` ends the program with status 0 and its name and version. -/
theorem C129_version_partial {d : Char} {prog : List (Stmt V)} {c : T V} (hc : declare (new d true) prog 3 = .ok c)
    (hd : d ∉ "--version".toList) (fuel : Nat) (name version message : Str) (type descr : Nat → Str) (more : List Str) :
    run fuel version message true type descr c (name :: "--version".toList :: more) =
      .ok (some (.exits 0 ⟨[[], name ++ "  version: ".toList ++ version, []], []⟩)) := by
  have hp := forget_help (e := .version) (asks hc descr (n := "version".toList) (by decide) hd
    (b := CmdLine.builtin 1 [] "version".toList "Displays version information and exits.".toList .version)
    (by simp [new]) rfl rfl ⟨false, rfl⟩ rfl (st := .version) rfl more) rfl (fun x h => by cases h)
  unfold run
  dsimp only
  have hp : CmdLineSaid.parse descr c ("--version".toList :: more) = .error .version := hp
  rw [hp]
  rfl

/-- **C129.** The status tells what happened: the program goes on exactly with the lines that are accepted, and an exit
with 1 means that the line was rejected, with 0 that help or version were asked for. -/
theorem C129_status (fuel : Nat) (version message : Str) (help : Bool) (type descr : Nat → Str) (c : T V) (name : Str)
    (argv : List Str) {s : Seen V} (h : run fuel version message help type descr c (name :: argv) = .ok (some s)) :
    match s with
    | .goesOn c' => CmdLine.parse c argv = .ok c'
    | .exits n _ => (n = 1 ∧ ∃ e, CmdLine.parse c argv = .error (.fail e)) ∨
        (n = 0 ∧ (CmdLine.parse c argv = .error .help ∨ CmdLine.parse c argv = .error .version)) := by
  have hsame := said_forget descr c argv
  rw [← hsame]
  unfold run at h
  dsimp only at h
  cases hp : CmdLineSaid.parse descr c argv with
  | ok c' => rw [hp] at h; cases h; rfl
  | error e =>
    rw [hp] at h
    cases e with
    | said e x =>
      simp only at h
      split at h
      · rename_i p _
        cases p with
        | none => cases h
        | some p => cases h; exact .inl ⟨rfl, e, rfl⟩
      · cases h
      · cases h
    | help =>
      simp only at h
      split at h
      · rename_i p _
        cases p with
        | none => cases h
        | some p => cases h; exact .inr ⟨rfl, .inl rfl⟩
      · cases h
      · cases h
    | version => cases h; exact .inr ⟨rfl, .inr rfl⟩
    | ub => cases h

private theorem short_shows {fuel : Nat} {c : Cmd V} (hl : c.prog.length ≤ 72)
    (hf : (usageText c.delim c.prog c.groups c.args).length ≤ fuel) :
    ∃ ls, Usage.shortUsage c.delim fuel c.prog c.groups c.args = .ok (some ls) ∧
      Shows [.text 3 (secondLineOffset c.prog) (usageText c.delim c.prog c.groups c.args)] ls := by
  have hw : 3 + secondLineOffset c.prog < 75 := by unfold secondLineOffset; split <;> omega
  have h := (decides_print (fuel := fuel) (i := 3) (o := secondLineOffset c.prog)
    (usageText c.delim c.prog c.groups c.args) hw (by
      intro i o s hm
      have := List.mem_singleton.1 hm
      cases this
      exact hf))
  by_cases hb : Breakable (.text 3 (secondLineOffset c.prog) (usageText c.delim c.prog c.groups c.args))
  · exact h.1 fun p hp => by rw [List.mem_singleton.1 hp]; exact hb
  · have hu : Usage.shortUsage c.delim fuel c.prog c.groups c.args = .ub := h.2 ⟨_, List.mem_singleton.2 rfl, hb⟩
    obtain ⟨ls, h1, -⟩ := C90_short_usage_partial c.delim fuel c.prog c.groups c.args hl hf
    rw [hu] at h1
    cases h1

/-- **C129.** A rejected line of a program with `--help` ends it with status 1; nothing goes to the standard output, and
to the error stream go what is said about the line (`C128`), how to call the program, and a hint to `--help`. -/
theorem C129_rejected_partial (c : T V) (fuel : Nat) (name version message : Str) (type descr : Nat → Str)
    (argv : List Str) {e : CmdLine.Err} {x : CmdLineSaid.Exc} (h : CmdLineSaid.parse descr c argv = .error (.said e x))
    (hl : name.length ≤ 72) (v : Cmd V) (hv : v = view name version message true type c)
    (hf : (usageText c.delim name v.groups v.args).length ≤ fuel) :
    ∃ ls, run fuel version message true type descr c (name :: argv) = .ok (some (.exits 1 ⟨[], errorLines x ++
        ["Brief USAGE: ".toList] ++ ls ++ [[], "For complete USAGE and HELP type: ".toList,
          "   ".toList ++ name ++ " --help".toList, []]⟩)) ∧
      Shows [.text 3 (secondLineOffset name) (usageText c.delim name v.groups v.args)] ls := by
  subst hv
  obtain ⟨ls, h1, h2⟩ := short_shows (c := view name version message true type c) hl hf
  refine ⟨ls, ?_, h2⟩
  unfold run
  dsimp only
  rw [h]
  simp only
  unfold HelpFrame.failure
  rw [if_pos (show (view name version message true type c).help = true from rfl), h1]
  simp [andThen, put, view]

/-- **C129.** Without `--help`, the error stream gets what is said about the line, and the standard output the help. -/
theorem C129_rejected_bare_partial (c : T V) (fuel : Nat) (name version message : Str) (type descr : Nat → Str)
    (argv : List Str) {e : CmdLine.Err} {x : CmdLineSaid.Exc} (h : CmdLineSaid.parse descr c argv = .error (.said e x))
    (doc : List Para)
    (hdoc : doc = let v := view name version message false type c
      helpDoc (secondLineOffset name) (usageText c.delim name v.groups v.args)
        (v.groups.map fun g => g.map fun i => ⟨longID i, CmdLine.getDescription i.arg⟩)
        ((v.args.filter fun i => ¬∃ g ∈ v.groups, ∃ j ∈ g, j.arg.id = i.arg.id).map
          fun i => ⟨longID i, CmdLine.getDescription i.arg⟩) message)
    (hf : ∀ i o s, Para.text i o s ∈ doc → s.length ≤ fuel) (hb : ∀ p ∈ doc, Breakable p) :
    ∃ ls, run fuel version message false type descr c (name :: argv) =
      .ok (some (.exits 1 ⟨ls, errorLines x⟩)) ∧ Shows doc ls := by
  obtain ⟨ls, h1, h2⟩ := (C129_usage fuel (view name version message false type c) doc hdoc hf).1 hb
  refine ⟨ls, ?_, h2⟩
  unfold run
  dsimp only
  rw [h]
  simp only
  unfold HelpFrame.failure
  rw [if_neg (by simp [view]), h1]
  rfl

/-- **C129 fails.** With a name of at least 73 characters without a break, as of a program in a deep directory, a
rejected line and a call for help have undefined behaviour. -/
theorem C129_fails_name (c : T V) (fuel : Nat) (name version message : Str) (help : Bool) (type descr : Nat → Str)
    (argv : List Str) (hl : 73 ≤ name.length) (hb : ∀ ch ∈ name, ch ∉ breaks)
    (h : (∃ e, CmdLine.parse c argv = .error (.fail e)) ∨ CmdLine.parse c argv = .error .help) :
    run (fuel + 1) version message help type descr c (name :: argv) = .ub := by
  have hs := C90_fails_program c.delim fuel name (view name version message help type c).groups
    (view name version message help type c).args hl hb
  have hs : Usage.shortUsage (view name version message help type c).delim (fuel + 1)
    (view name version message help type c).prog (view name version message help type c).groups
    (view name version message help type c).args = .ub := hs
  have hu : usage (fuel + 1) (view name version message help type c) = .ub := by
    unfold usage
    rw [hs]
    rfl
  have hsame := said_forget descr c argv
  unfold run
  dsimp only
  rw [← hsame] at h
  cases hp : CmdLineSaid.parse descr c argv with
  | ok c' => rw [hp] at h; rcases h with ⟨_, h⟩ | h <;> cases h
  | error e =>
    cases e with
    | said e x =>
      have : HelpFrame.failure (fuel + 1) (view name version message help type c) x = .ub := by
        unfold HelpFrame.failure
        split
        · rw [hs]; rfl
        · rw [hu]
      simp only [this]
    | help => simp only [hu]
    | version => rw [hp] at h; rcases h with ⟨_, h⟩ | h <;> cases h
    | ub => rfl

namespace C129
/-- A value `--he` and a switch. -/
def prog : List (Stmt Int) :=
  [.one ⟨[], "he".toList, "A number.".toList, false, false, extractInt, none, .value 7⟩,
   .xor [⟨['v'], "verbose".toList, "Says more.".toList, false, false, extractInt, none, .switch false⟩,
     ⟨['q'], "quiet".toList, "Says less.".toList, false, false, extractInt, none, .switch false⟩]]

def type : Nat → Str := fun _ => "int".toList

/-- The outcome, if the process ends. -/
def printed (r : Outcome (Option (Seen Int))) : Option (Nat × Printed) :=
  match r with
  | .ok (some (.exits n p)) => some (n, p)
  | _ => none
end C129

/-- **C129 fails.** The hint to `--help` need not lead to the help: with the delimiter `l` it is read as the value `p`
of an argument `--he`. -/
theorem C129_fails_hint : ∃ c : T Int, declare (new 'l' true) C129.prog 3 = .ok c ∧
    ∃ p, C129.printed (run 99 [] [] true C129.type C129.type c ["prog".toList, "--help".toList]) = some (1, p) ∧
      p.out = [] ∧ "   prog --help".toList ∈ p.err ∧ "PARSE ERROR: Argument: (--he)".toList ∈ p.err :=
  ⟨_, rfl, _, rfl, by decide, by decide, by decide⟩

/-- **C129 fails.** The message about a rejected line is not all on the error stream: without `--help` the explanation
goes to the standard output, where the results of the program are expected. -/
theorem C129_fails_streams : ∃ c : T Int, declare (new ' ' false) C129.prog 3 = .ok c ∧
    ∃ p, C129.printed (run 99 [] [] false C129.type C129.type c ["prog".toList, "x".toList]) = some (1, p) ∧
      p.err = ["PARSE ERROR: Argument: x".toList, "             Couldn't find match for argument".toList, []] ∧
      "USAGE: ".toList ∈ p.out :=
  ⟨_, rfl, _, rfl, by decide, by decide⟩

/-- All of its texts can be broken into lines, and one pass per line is enough. -/
example : ∃ c : T Int, declare (new ' ' true) C129.prog 3 = .ok c ∧ ' ' ∉ "--help".toList ∧
    (∀ p ∈ docOf (view "prog".toList "1.0".toList "The end.".toList true C129.type c), Breakable p ∧
      match p with
      | .line _ => True
      | .text _ _ s => s.length ≤ 99) := by
  refine ⟨_, rfl, by decide, ?_⟩
  have : ∀ p : Para, (match p with
      | .line _ => true
      | .text i _ s => decide (s.length + i ≤ 75 ∧ s.length ≤ 99)) = true → Breakable p ∧
      match p with
      | .line _ => True
      | .text _ _ s => s.length ≤ 99 := by
    intro p h
    cases p with
    | line s => exact ⟨trivial, trivial⟩
    | text i o s =>
      have h := of_decide_eq_true h
      exact ⟨.inl h.1, h.2⟩
  intro p hp
  apply this
  revert p
  decide +kernel

/-- The help of the program above. -/
example : ∃ c : T Int, declare (new ' ' true) C129.prog 3 = .ok c ∧
    C129.printed (run 99 "1.0".toList "The end.".toList true C129.type C129.type c ["prog".toList, "--help".toList]) =
      some (0, ⟨["".toList, "USAGE: ".toList, "".toList, "   prog  {-v|-q} [--he <int>] [--] [--version] [-h]".toList,
        "".toList, "".toList, "Where: ".toList, "".toList, "   -v,  --verbose".toList, "     (OR required)  Says more.".toList,
        "         -- OR --".toList, "   -q,  --quiet".toList, "     (OR required)  Says less.".toList, "".toList, "".toList,
        "   --he <int>".toList, "     A number.".toList, "".toList,
        "   --,  --ignore_rest".toList, "     Ignores the rest of the labeled arguments following this flag.".toList,
        "".toList, "   --version".toList, "     Displays version information and exits.".toList, "".toList,
        "   -h,  --help".toList, "     Displays usage information and exits.".toList, "".toList, "".toList,
        "   The end.".toList, "".toList], []⟩) :=
  ⟨_, rfl, by decide +kernel⟩

end Ecl.Props
