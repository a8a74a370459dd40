import Verif.Model.Exceptions
import Verif.Spec.Report

/-!
# C37: exceptions keep their trace, flag and message
-/
set_option autoImplicit false
set_option linter.unusedSimpArgs false

namespace Ecl.Props
open Ecl Ecl.Exc Ecl.Spec

/-- Rethrow through the given locations, innermost first. -/
def rethrowAll (name : Flag → Text) (locs : List Text) (e : Std) : Std :=
  locs.foldl (fun e loc => e.rethrow name loc) e

/-- The same for exceptions with data. -/
def rethrowAllData {δ : Type} (name : Flag → Text) (shown : δ → Text) (locs : List Text) (e : Dat δ) :
    Dat δ :=
  locs.foldl (fun e loc => e.rethrow name shown loc) e

private theorem takeWhile_id {α : Type} (p : α → Bool) (l : List α) (h : ∀ a ∈ l, p a = true) :
    l.takeWhile p = l := by
  induction l with
  | nil => rfl
  | cons a l ih =>
    rw [List.takeWhile_cons, if_pos (h a (by simp)), ih (fun b hb => h b (by simp [hb]))]

/-- The trace, innermost location last. -/
private def trace : List Text → Text
  | [] => []
  | [l] => l
  | l :: ls => l ++ "\n         : ".toList ++ trace ls

private theorem trace_cons (l : Text) (ls : List Text) (h : ls ≠ []) :
    trace (l :: ls) = l ++ "\n         : ".toList ++ trace ls := by
  cases ls with
  | nil => exact absurd rfl h
  | cons => rfl

private theorem report_trace (locs : List Text) (h : locs ≠ []) (fl det : Text) (more : List Text) :
    unlines (reportLines locs fl det more) =
      "\nLocation : ".toList ++ trace locs ++ "\n".toList ++ "Flag     : ".toList ++ fl ++ "\n".toList
      ++ (if det = [] then [] else "Detail   : ".toList ++ det ++ "\n".toList) ++ unlines more := by
  cases locs with
  | nil => exact absurd rfl h
  | cons l ls =>
    have key : ∀ (ls : List Text) (l : Text),
        l ++ '\n' :: unlines (ls.map ("         : ".toList ++ ·)) = trace (l :: ls) ++ ['\n'] := by
      intro ls
      induction ls with
      | nil => intro l; simp [trace, unlines]
      | cons a ls ih =>
        intro l
        rw [trace_cons l (a :: ls) (by simp), List.append_assoc, ← ih a]
        simp [unlines]
    have happ : ∀ a b : List Text, unlines (a ++ b) = unlines a ++ unlines b := by
      intro a b; simp [unlines]
    have hs : ∀ x : Text, unlines [x] = x ++ ['\n'] := by intro x; simp [unlines]
    have hc : ∀ (x : Text) xs, unlines (x :: xs) = x ++ '\n' :: unlines xs := by
      intro x xs; simp [unlines]
    have k := key ls l
    unfold reportLines
    simp only [happ, hs, hc]
    have e : ("Location : ".toList ++ l) ++ '\n' :: unlines (ls.map ("         : ".toList ++ ·))
        = "Location : ".toList ++ (trace (l :: ls) ++ ['\n']) := by
      rw [← k, List.append_assoc]
    rw [e]
    split <;> simp [unlines]

/-- **C37**: an exception thrown at `loc` and rethrown through any number of levels keeps flag and
detailed message, and its report lists every location from the outermost to the innermost, then the
flag and the detail, if there is one - for texts without NUL characters (see `C37_fails_nul`). -/
theorem C37_standard (name : Flag → Text) (loc : Text) (f : Flag) (msg : Text) (locs : List Text)
    (hname : ∀ f, '\x00' ∉ name f) (hloc : ∀ l ∈ loc :: locs, '\x00' ∉ l) (hmsg : '\x00' ∉ msg) :
    (rethrowAll name locs (Std.make name loc f msg)).flag = f ∧
    (rethrowAll name locs (Std.make name loc f msg)).detail = msg ∧
    (rethrowAll name locs (Std.make name loc f msg)).what
      = unlines (reportLines (locs.reverse ++ [loc]) (name f) msg []) := by
  have hcomb : ∀ e : Std, (e.combine name).flag = e.flag ∧ (e.combine name).detail = e.detail ∧
      (e.combine name).location = e.location := by
    intro e; unfold Std.combine; split <;> simp
  have hidem : ∀ e : Std, (e.combine name).combined = ((e.combine name).combine name).combined := by
    intro e; unfold Std.combine; split <;> simp_all
  have key : ∀ (locs : List Text) (done : List Text) (e : Std), done ≠ [] →
      e.flag = f → e.detail = msg → e.location = trace done →
      e.combined = (e.combine name).combined →
      let e' := rethrowAll name locs e
      e'.flag = f ∧ e'.detail = msg ∧ e'.location = trace (locs.reverse ++ done) ∧
      e'.combined = (e'.combine name).combined := by
    intro locs
    induction locs with
    | nil => intro done e _ h1 h2 h3 h4; exact ⟨h1, h2, h3, h4⟩
    | cons l locs ih =>
      intro done e hne h1 h2 h3 h4
      have hr := hcomb (Std.mk (l ++ "\n         : ".toList ++ e.location) e.flag e.detail [])
      have := ih (l :: done) (e.rethrow name l) (by simp)
        (by rw [Std.rethrow, hr.1, ← h1]) (by rw [Std.rethrow, hr.2.1, ← h2])
        (by rw [Std.rethrow, hr.2.2, trace_cons _ _ hne, ← h3])
        (hidem _)
      simpa [rethrowAll] using this
  have h0 := hcomb (Std.mk loc f msg [])
  obtain ⟨h1, h2, h3, h4⟩ := key locs [loc] (Std.make name loc f msg) (by simp)
    (by rw [Std.make, h0.1]) (by rw [Std.make, h0.2.1]) (by rw [Std.make, h0.2.2]; rfl)
    (hidem _)
  refine ⟨h1, h2, ?_⟩
  have hc : (rethrowAll name locs (Std.make name loc f msg)).combined
      = unlines (reportLines (locs.reverse ++ [loc]) (name f) msg []) := by
    rw [report_trace _ (by simp), h4]
    unfold Std.combine
    rw [h1, h2, h3]
    by_cases hm : msg = []
    · subst hm; simp [unlines]
    · have : msg.length > 0 := List.length_pos_iff.2 hm
      simp [hm, this, unlines]
  rw [Std.what, hc]
  apply takeWhile_id
  intro c hc
  simp only [unlines, List.mem_flatMap] at hc
  obtain ⟨l, hl, hc⟩ := hc
  suffices '\x00' ∉ l ++ ['\n'] by
    simp only [decide_eq_true_eq]; rintro rfl; exact this hc
  simp only [List.mem_append, not_or]
  refine ⟨?_, by decide⟩
  clear hc
  have hpre : ∀ (p x : Text), '\x00' ∉ p → '\x00' ∉ x → '\x00' ∉ p ++ x := by
    intro p x h1 h2 h; rcases List.mem_append.1 h with h | h
    · exact h1 h
    · exact h2 h
  have hlocs : ∀ x ∈ locs.reverse ++ [loc], '\x00' ∉ x := by
    intro x hx; apply hloc; simp only [List.mem_append, List.mem_reverse, List.mem_singleton] at hx
    simp only [List.mem_cons]; exact hx.symm
  cases hq : locs.reverse ++ [loc] with
  | nil => simp at hq
  | cons a rest =>
    rw [hq] at hl hlocs
    simp only [reportLines, List.mem_append, List.mem_cons, List.mem_map,
      List.append_nil, List.not_mem_nil, or_false] at hl
    rcases hl with (((rfl | rfl | ⟨x, hx, rfl⟩) | rfl) | hl)
    · simp
    · exact hpre _ _ (by decide) (hlocs a (by simp))
    · exact hpre _ _ (by decide) (hlocs x (by simp [hx]))
    · exact hpre _ _ (by decide) (hname f)
    · split at hl
      · simp at hl
      · simp only [List.mem_singleton] at hl; subst hl
        exact hpre _ _ (by decide) hmsg

/-- **C37**: the same for exceptions with data, which also keep their data and show it. -/
theorem C37_data {δ : Type} (name : Flag → Text) (shown : δ → Text) (loc : Text) (f : Flag) (msg : Text)
    (d : δ) (locs : List Text) :
    (rethrowAllData name shown locs (Dat.make name shown loc f msg d)).flag = f ∧
    (rethrowAllData name shown locs (Dat.make name shown loc f msg d)).data = d ∧
    (rethrowAllData name shown locs (Dat.make name shown loc f msg d)).what
      = (unlines (reportLines (locs.reverse ++ [loc]) (name f) msg
          ["Data     : ".toList ++ shown d])).takeWhile (· ≠ '\x00') := by
  have key : ∀ (locs : List Text) (done : List Text) (e : Dat δ), done ≠ [] →
      e.flag = f → e.message = msg → e.data = d → e.location = trace done →
      e.combined = (e.combine name shown).combined →
      let e' := rethrowAllData name shown locs e
      e'.flag = f ∧ e'.message = msg ∧ e'.data = d ∧ e'.location = trace (locs.reverse ++ done) ∧
      e'.combined = (e'.combine name shown).combined := by
    intro locs
    induction locs with
    | nil => intro done e _ h1 h2 h3 h4 h5; exact ⟨h1, h2, h3, h4, h5⟩
    | cons l locs ih =>
      intro done e hne h1 h2 h3 h4 h5
      have := ih (l :: done) (e.rethrow name shown l) (by simp) h1 h2 h3
        (by rw [trace_cons _ _ hne, ← h4]; rfl) rfl
      simpa [rethrowAllData] using this
  obtain ⟨h1, h2, h3, h4, h5⟩ := key locs [loc] (Dat.make name shown loc f msg d) (by simp) rfl rfl rfl rfl rfl
  refine ⟨h1, h3, ?_⟩
  rw [Dat.what, report_trace _ (by simp), h5]
  unfold Dat.combine
  simp only [h1, h2, h3, h4]
  congr 1
  by_cases hm : msg = []
  · subst hm; simp [unlines]
  · have : msg.length > 0 := List.length_pos_iff.2 hm
    simp [hm, this, unlines]

/-- **C37**: nothing is lost in the report: its lines can be read back when the texts have no
newlines. -/
theorem C37_lines_read_back (l : List Text) (h : ∀ x ∈ l, '\n' ∉ x) : linesOf [] (unlines l) = l := by
  have key : ∀ (x acc rest : Text), '\n' ∉ x →
      linesOf acc (x ++ '\n' :: rest) = (acc ++ x) :: linesOf [] rest := by
    intro x
    induction x with
    | nil => intro acc rest _; simp [linesOf]
    | cons c x ih =>
      intro acc rest hx
      have hc : c ≠ '\n' := fun e => hx (by simp [e])
      simp only [List.cons_append, linesOf, hc, if_false]
      rw [ih _ _ (fun h => hx (by simp [h]))]
      simp
  induction l with
  | nil => rfl
  | cons x l ih =>
    have : unlines (x :: l) = x ++ '\n' :: unlines l := by simp [unlines]
    rw [this, key _ _ _ (h x (by simp)), ih (fun y hy => h y (by simp [hy]))]
    rfl

/-- **C37 fails** for a message with a NUL character: what follows it is not reported. -/
theorem C37_fails_nul (name : Flag → Text) (hname : ∀ f, '\x00' ∉ name f) (f : Flag) :
    (Std.make name "f.cpp:1".toList f ['a', '\x00', 'b']).what
      = (Std.make name "f.cpp:1".toList f ['a', '\x00', 'c']).what := by
  have e : ∀ x : Text, (Std.make name "f.cpp:1".toList f ('a' :: '\x00' :: x)).what
      = (("\nLocation : ".toList ++ "f.cpp:1".toList ++ "\n".toList ++ "Flag     : ".toList ++ name f
        ++ "\n".toList ++ "Detail   : ".toList ++ ['a']) ++ ('\x00' :: (x ++ ['\n']))).takeWhile
          (· ≠ '\x00') := by
    intro x; simp [Std.make, Std.combine, Std.what]
  rw [e ['b'], e ['c'], List.takeWhile_append_of_pos, List.takeWhile_append_of_pos] 
  · simp
  all_goals
    intro c hc
    rw [decide_eq_true_eq]
    rintro rfl
    simp [hname f] at hc

example : String.ofList (rethrowAll (fun _ => "oops".toList) ["b".toList, "c".toList]
    (Std.make (fun _ => "oops".toList) "a".toList .openError "why".toList)).what
    = "\nLocation : c\n         : b\n         : a\nFlag     : oops\nDetail   : why\n" := by decide

end Ecl.Props
