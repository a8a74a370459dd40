import Verif.Lemmas.CmdLineProcess
import Mathlib.Tactic.IntervalCases

/-! # C113: several command lines in one process -/
set_option autoImplicit false
set_option linter.unusedSimpArgs false

namespace Ecl.Props
open Ecl Ecl.CmdLine Ecl.CmdLine.Process Ecl.Spec

variable {V : Type}

/-- **C113, partial.** A program with any number of command lines, made, filled and parsed in any order: as long as none
of them meets what another one left behind (`Apart`), each ends up with the same arguments and values as if it were the
only one, and the program ends early exactly as one of them alone would end it.  Missing: programs that are not `Apart`
(`C113_fails_delimiter`, `C113_fails_ignore`, `C113_fails_optional`). -/
theorem C113_apart_partial (h : List (Op V)) (ha : Apart h) :
    (∀ p, run fresh h = .ok p → ∀ i, ∃ q, run fresh (opsOn i h) = .ok q ∧ q.lines i = p.lines i) ∧
    (∀ e, run fresh h = .error e → ∃ i, run fresh (opsOn i h) = .error e) := by
  have hs := sim h ha
  constructor
  · intro p hp i
    rw [hp] at hs
    obtain ⟨q, hq, S⟩ := hs
    exact ⟨q i, hq i, S.lines i⟩
  · intro e he
    rw [he] at hs
    exact hs

/-- **C113.** So if each command line alone is declared and parsed without an error, the program is. -/
theorem C113_no_new_error (h : List (Op V)) (ha : Apart h) (hok : ∀ i, ∃ q, run fresh (opsOn i h) = .ok q) :
    ∃ p, run fresh h = .ok p := by
  cases e : run fresh h with
  | ok p => exact ⟨p, rfl⟩
  | error e' =>
    obtain ⟨i, hi⟩ := (C113_apart_partial h ha).2 e' e
    obtain ⟨q, hq⟩ := hok i
    rw [hq] at hi
    cases hi

namespace C113

theorem declare_cons (c : T V) (s : Stmt V) (ss : List (Stmt V)) (n : Nat) :
    CmdLine.declare c (s :: ss) n = match CmdLine.declare c [s] n with
      | .error e => .error e
      | .ok c' => CmdLine.declare c' ss (n + s.size) := by
  cases s with
  | one d =>
    simp only [CmdLine.declare, Stmt.size]
    cases newArg c d n with
    | error e => rfl
    | ok r =>
      obtain ⟨c1, a⟩ := r
      dsimp only
      cases add c1 a <;> rfl
  | xor ds =>
    simp only [CmdLine.declare, Stmt.size]
    cases newArgs c ds n with
    | error e => rfl
    | ok r =>
      obtain ⟨c1, a⟩ := r
      dsimp only
      cases xorAdd c1 a <;> rfl

theorem run_append (p : Proc V) (a b : List (Op V)) : run p (a ++ b) = match run p a with
    | .error e => .error e
    | .ok q => run q b := by
  induction a generalizing p with
  | nil => rfl
  | cons x xs ih =>
    simp only [List.cons_append, run]
    cases step p x with
    | error e => rfl
    | ok q => exact ih q

theorem run_declare (i : Nat) (prog : List (Stmt V)) : ∀ (p : Proc V) (l : Line V), p.lines i = some l →
    match CmdLine.declare (load p l) prog l.next with
    | .error e => run p (prog.map (.declare i)) = .error (.spec e)
    | .ok c => ∃ q l', run p (prog.map (.declare i)) = .ok q ∧ q.lines i = some l' ∧ load q l' = c := by
  induction prog with
  | nil => intro p l hl; exact ⟨p, l, rfl, hl, rfl⟩
  | cons s ss ih =>
    intro p l hl
    rw [declare_cons]
    simp only [List.map_cons, run, step, hl]
    cases hd : CmdLine.declare (load p l) [s] l.next with
    | error e => rfl
    | ok c =>
      have hs := (declare_statics hd).2.2.1
      have := ih (save p i c (l.next + s.size)) ⟨c.args, c.xors, c.numRequired, l.next + s.size⟩ (by simp [save])
      have e : load (save p i c (l.next + s.size)) ⟨c.args, c.xors, c.numRequired, l.next + s.size⟩ = c := by
        have : c.delim = p.delim := hs
        simp only [load, save]
        rw [← this]
      rw [e] at this
      exact this

end C113
open C113

/-- **C113.** The only command line of a process is what C48, C49 and C50 are about. -/
theorem C113_alone (i : Nat) (d : Char) (hv : Bool) (prog : List (Stmt V)) (argv : List Str) :
    match CmdLine.declare (new d hv) prog 3 with
    | .error e => run fresh (.make i d hv :: prog.map (.declare i) ++ [.parse i argv]) = .error (.spec e)
    | .ok c =>
      match CmdLine.parse c argv with
      | .error e => run fresh (.make i d hv :: prog.map (.declare i) ++ [.parse i argv]) = .error (.stop e)
      | .ok c' => ∃ q l, run fresh (.make i d hv :: prog.map (.declare i) ++ [.parse i argv]) = .ok q ∧
          q.lines i = some l ∧ l.args = c'.args := by
  have h := run_declare i prog
    ⟨Function.update (fresh (V := V)).lines i (some ⟨(new d hv).args, (new d hv : T V).xors, (new d hv : T V).numRequired, 3⟩),
      d, false, false⟩ ⟨(new d hv).args, (new d hv : T V).xors, (new d hv : T V).numRequired, 3⟩ (by simp)
  rw [show load _ _ = (new d hv : T V) from rfl] at h
  have e1 : run fresh (.make i d hv :: prog.map (.declare i) ++ [.parse i argv]) =
      match run ⟨Function.update (fresh (V := V)).lines i
        (some ⟨(new d hv).args, (new d hv : T V).xors, (new d hv : T V).numRequired, 3⟩), d, false, false⟩
          (prog.map (.declare i)) with
      | .error e => .error e
      | .ok q => run q [.parse i argv] := by
    rw [← run_append]
    rfl
  rw [e1]
  cases hd : CmdLine.declare (new d hv) prog 3 with
  | error e => rw [hd] at h; simp only at h ⊢; rw [h]
  | ok c =>
    rw [hd] at h
    obtain ⟨q, l, h1, h2, h3⟩ := h
    simp only
    rw [h1]
    simp only [run, step, h2, h3]
    cases hp : CmdLine.parse c argv with
    | error e => rfl
    | ok c' => exact ⟨save q i c' l.next, ⟨c'.args, c'.xors, c'.numRequired, l.next⟩, rfl, by simp [save], rfl⟩

namespace C113

/-- An integer option, and an integer without a label. -/
def option (flag name : String) : Stmt Int :=
  .one ⟨flag.toList, name.toList, name.toList, false, false, extractInt, none, .value 0⟩
def plain (name : String) (required : Bool) : Stmt Int :=
  .one ⟨[], name.toList, name.toList, required, true, extractInt, none, .value 0⟩

/-- The values of a command line of a process that came to its end. -/
def values (r : Except End (Proc Int)) (i : Nat) : Option (List (Str × Slot Int)) :=
  match r with
  | .error _ => none
  | .ok p => (p.lines i).map fun l => l.args.map fun a => (a.name, a.slot)

/-- How a process ended early. -/
def ended (r : Except End (Proc Int)) : Option End :=
  match r with
  | .error e => some e
  | .ok _ => none

end C113

/-- **C113 fails.** A command line with the delimiter `=` is rejected if one with another delimiter is made before it is
parsed. -/
theorem C113_fails_delimiter :
    let h : List (Op Int) := [.make 0 '=' false, .declare 0 (option "n" "number"), .make 1 ' ' false,
      .parse 0 ["--number=5".toList]]
    ended (run fresh h) = some (.stop (.fail .noMatch)) ∧
    values (run fresh (opsOn 0 h)) 0 = some [("number".toList, .value 5), ("ignore_rest".toList, .switch false)] := by
  decide +kernel

/-- **C113 fails.** After one command line was told to ignore the rest, others ignore everything, without an error. -/
theorem C113_fails_ignore :
    let h : List (Op Int) := [.make 0 ' ' false, .parse 0 ["--".toList, "x".toList], .make 1 ' ' false,
      .declare 1 (option "n" "number"), .parse 1 ["-n".toList, "5".toList]]
    values (run fresh h) 1 = some [("number".toList, .value 0), ("ignore_rest".toList, .switch false)] ∧
    values (run fresh (opsOn 1 h)) 1 = some [("number".toList, .value 5), ("ignore_rest".toList, .switch false)] := by
  decide +kernel

/-- **C113 fails.** After one command line has an optional argument without a label, no other can have any. -/
theorem C113_fails_optional :
    let h : List (Op Int) := [.make 0 ' ' false, .declare 0 (plain "a" false), .make 1 ' ' false,
      .declare 1 (plain "b" true), .parse 1 ["7".toList]]
    ended (run fresh h) = some (.spec .afterOptional) ∧
    values (run fresh (opsOn 1 h)) 1 = some [("ignore_rest".toList, .switch false), ("b".toList, .value 7)] := by
  decide +kernel

namespace C113

/-- Two command lines with different delimiters, one after the other, the second with an optional argument and `--`. -/
def program : List (Op Int) := [.make 0 '=' false, .declare 0 (option "n" "number"), .parse 0 ["--number=5".toList],
  .make 1 ' ' true, .declare 1 (plain "a" true), .declare 1 (plain "b" false), .parse 1 ["7".toList, "--".toList]]

theorem program_apart : Apart program := by
  intro b o a e
  have hb : b = program.take b.length := by rw [e]; simp
  have ho : program[b.length]? = some o := by rw [e]; simp
  have hl : b.length < 7 := by
    have := congrArg List.length e
    simp [program] at this
    omega
  generalize b.length = k at *
  subst hb
  clear e
  interval_cases k <;> simp only [program, List.getElem?_cons_succ, List.getElem?_cons_zero, Option.some.injEq] at ho <;>
    subst ho
  · trivial
  · simp [program]
  · exact ⟨rfl, by simp [program]⟩
  · trivial
  · rintro - j s' hj hm
    simp only [program, List.take, List.mem_cons, List.not_mem_nil, or_false, reduceCtorEq, false_or, Op.declare.injEq] at hm
    obtain ⟨rfl, rfl⟩ := hm
    rintro ⟨x, hx, hu, _⟩
    simp only [option, declsOf, List.mem_singleton] at hx
    subst hx
    cases hu
  · rintro - j s' hj hm
    simp only [program, List.take, List.mem_cons, List.not_mem_nil, or_false, reduceCtorEq, false_or, Op.declare.injEq] at hm
    rcases hm with ⟨rfl, rfl⟩ | ⟨rfl, rfl⟩
    · rintro ⟨x, hx, hu, _⟩
      simp only [option, declsOf, List.mem_singleton] at hx
      subst hx
      cases hu
    · exact absurd rfl hj
  · refine ⟨rfl, ?_⟩
    intro j argv' hj hm t ht
    simp only [program, List.take, List.mem_cons, List.not_mem_nil, or_false, reduceCtorEq, false_or, Op.parse.injEq] at hm
    obtain ⟨rfl, rfl⟩ := hm
    simp only [List.mem_singleton] at ht
    subst ht
    rintro (h | h | ⟨s, h, h', _⟩)
    · exact absurd h (by decide)
    · exact absurd h (by decide)
    · have : s = "-number=5".toList := (List.cons.inj h).2.symm
      rw [this] at h'
      exact h' rfl

end C113

/-- It gives each command line its values. -/
example : ∃ p, run fresh program = .ok p ∧
    (p.lines 0).map (fun l => l.args.map fun a => (a.name, a.slot)) =
      some [("number".toList, .value 5), ("ignore_rest".toList, .switch false)] := by
  obtain ⟨p, hp⟩ := C113_no_new_error program program_apart fun i => by
    match i with
    | 0 => exact ⟨_, rfl⟩
    | 1 => exact ⟨_, rfl⟩
    | i + 2 => exact ⟨fresh, by simp [opsOn, program, Op.line, run]⟩
  refine ⟨p, hp, ?_⟩
  obtain ⟨q, hq, hl⟩ := (C113_apart_partial program program_apart).1 p hp 0
  have : values (run fresh (opsOn 0 program)) 0 =
      some [("number".toList, .value 5), ("ignore_rest".toList, .switch false)] := by decide +kernel
  rw [hq] at this
  rw [← hl]
  exact this

end Ecl.Props
