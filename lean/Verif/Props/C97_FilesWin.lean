import Verif.Model.FilesWin
import Verif.Spec.TextMode
import Verif.Props.C25_C26_C71_Files

/-!
# C97: files on Windows
-/
set_option autoImplicit false
set_option linter.unusedSimpArgs false

namespace Ecl.Props
open Ecl Ecl.Spec

private theorem text_eq : ∀ bs, OFileWin.text bs = onDisk bs
  | [] => rfl
  | b :: l => by
    have ih := text_eq l
    simp only [OFileWin.text] at ih
    by_cases h : b = 10
    · simp [OFileWin.text, onDisk, h, ih]
    · simp [OFileWin.text, onDisk, h, ih]

private theorem onDisk_nil {bs : List Nat} : onDisk bs = [] ↔ bs = [] := by
  cases bs with
  | nil => simp [onDisk]
  | cons b l => by_cases h : b = 10 <;> simp [onDisk, h]

private theorem onDisk_append : ∀ a b : List Nat, onDisk (a ++ b) = onDisk a ++ onDisk b
  | [], b => rfl
  | c :: a, b => by
    have ih := onDisk_append a b
    by_cases h : c = 10 <;> simp [onDisk, h, ih]

private theorem onDisk_flatten : ∀ ws : List (List Nat), (ws.map onDisk).flatten = onDisk ws.flatten
  | [] => rfl
  | w :: ws => by simp [onDisk_flatten ws, onDisk_append]

private theorem onDisk_plain : ∀ bs : List Nat, 10 ∉ bs → onDisk bs = bs
  | [], _ => rfl
  | b :: l, h => by
    rw [List.mem_cons, not_or] at h
    have hb : ¬ b = 10 := fun e => h.1 e.symm
    simp [onDisk, hb, onDisk_plain l h.2]

private theorem onDisk_length : ∀ bs : List Nat, (onDisk bs).length = bs.length + bs.count 10
  | [] => rfl
  | b :: l => by
    have ih := onDisk_length l
    by_cases h : b = 10
    · subst h; simp [onDisk, ih]; omega
    · simp [onDisk, h, ih]; omega

private theorem writes_eq (m : Mode) : ∀ (ws : List (List Nat)) (s f : OFile Nat), [] ∉ ws → s.stream ≠ none →
    OFile.writes m s (ws.map onDisk) = .ok f →
    OFileWin.writes m s ws = .ok (f, ws.map fun w => (w.length : Int))
  | [], s, f, _, _, h => by cases h; rfl
  | w :: ws, s, f, hw, hs, h => by
    simp only [List.mem_cons, not_or] at hw
    have hne : w ≠ [] := fun e => hw.1 e.symm
    have hne' : onDisk w ≠ [] := fun e => hne (onDisk_nil.1 e)
    cases hst : s.stream with
    | none => exact absurd hst hs
    | some q =>
      obtain ⟨mode, pos⟩ := q
      simp only [List.map_cons, OFile.writes, OFile.write, hst, hne', ne_eq, not_false_eq_true, and_self, if_true] at h
      have := writes_eq m ws _ f hw.2 (by cases mode <;> simp [OFile.emit]) h
      simp only [OFileWin.writes, OFileWin.write, hst, hne, ne_eq, not_false_eq_true, and_self, if_true, text_eq, this,
        Outcome.bind_ok, List.map_cons]

/-- What a file holds after it was opened, written to and closed; every write says that it wrote all its
bytes. -/
theorem C97_on_disk (m : Mode) (old : List Nat) (ws : List (List Nat)) (hne : [] ∉ ws) (mode : WMode)
    (hn : mode = .new → old.length ≤ (onDisk ws.flatten).length) :
    ∃ f, OFileWin.writes m (OFileWin.openFile ⟨old, none, .noError⟩ mode) ws = .ok (f, ws.map fun w => (w.length : Int)) ∧
      (OFileWin.close f).disk = (match mode with | .new => onDisk ws.flatten | .append => old ++ onDisk ws.flatten) := by
  have h := C71_contents_partial m old (ws.map onDisk) (by
    simp only [List.mem_map, not_exists, not_and]
    intro w hw e
    exact hne (onDisk_nil.1 e ▸ hw)) mode (by rw [onDisk_flatten]; exact hn)
  obtain ⟨f, h1, h2⟩ := h
  refine ⟨f, writes_eq m ws _ f hne (by simp [OFileWin.openFile]) h1, ?_⟩
  cases mode
  · exact h2.trans (onDisk_flatten ws)
  · exact h2.trans (congrArg (old ++ ·) (onDisk_flatten ws))

example : ∃ f, OFileWin.writes .debug (OFileWin.openFile ⟨[1, 2], none, .noError⟩ .append) [[104, 10], [10]] = .ok (f, [2, 1]) ∧
    (OFileWin.close f).disk = [1, 2, 104, 13, 10, 13, 10] := ⟨_, rfl, rfl⟩

/-- Bytes without an end of line are in the file as they were written. -/
theorem C97_contents_partial (m : Mode) (old : List Nat) (ws : List (List Nat)) (hne : [] ∉ ws) (mode : WMode)
    (hl : ∀ w ∈ ws, 10 ∉ w) (hn : mode = .new → old.length ≤ ws.flatten.length) :
    ∃ f rs, OFileWin.writes m (OFileWin.openFile ⟨old, none, .noError⟩ mode) ws = .ok (f, rs) ∧
      (OFileWin.close f).disk = (match mode with | .new => ws.flatten | .append => old ++ ws.flatten) := by
  have hp : onDisk ws.flatten = ws.flatten := onDisk_plain _ (by simpa using fun w hw h => hl w hw h)
  obtain ⟨f, h1, h2⟩ := C97_on_disk m old ws hne mode (by rw [hp]; exact hn)
  refine ⟨f, _, h1, ?_⟩
  cases mode
  · exact h2.trans hp
  · exact h2.trans (congrArg (old ++ ·) hp)

example : ∃ f rs, OFileWin.writes .release (OFileWin.openFile ⟨[9], none, .noError⟩ .new) [[1, 2], [3]] = .ok (f, rs) ∧
    (OFileWin.close f).disk = [1, 2, 3] := ⟨_, _, rfl, rfl⟩

/-- Any data with a byte 10 in it is not what the file holds, though every write reports success: the file is longer
by one byte for each. -/
theorem C97_fails_newline (m : Mode) (ws : List (List Nat)) (hne : [] ∉ ws) (mode : WMode) (h : 10 ∈ ws.flatten) :
    ∃ f, OFileWin.writes m (OFileWin.openFile ⟨[], none, .noError⟩ mode) ws = .ok (f, ws.map fun w => (w.length : Int)) ∧
      (OFileWin.close f).disk.length = ws.flatten.length + ws.flatten.count 10 ∧ (OFileWin.close f).disk ≠ ws.flatten := by
  obtain ⟨f, h1, h2⟩ := C97_on_disk m [] ws hne mode (by simp)
  have h3 : (OFileWin.close f).disk = onDisk ws.flatten := by cases mode <;> simpa using h2
  have hc := List.count_pos_iff.2 h
  refine ⟨f, h1, by rw [h3, onDisk_length], ?_⟩
  intro e
  rw [h3] at e
  have := congrArg List.length e
  rw [onDisk_length] at this
  omega

/-- Mode `New` leaves the rest of an old, longer file. -/
theorem C97_fails_new (m : Mode) (old bs : List Nat) (h : (onDisk bs).length < old.length) (hb : bs ≠ []) :
    ∃ f, OFileWin.writes m (OFileWin.openFile ⟨old, none, .noError⟩ .new) [bs] = .ok (f, [(bs.length : Int)]) ∧
      (OFileWin.close f).disk = onDisk bs ++ old.drop (onDisk bs).length := by
  have hb' : onDisk bs ≠ [] := fun e => hb (onDisk_nil.1 e)
  obtain ⟨f, h1, h2, -⟩ := C71_fails_new m old (onDisk bs) h hb'
  exact ⟨f, writes_eq m [bs] _ f (by simpa using fun e => hb e) (by simp [OFileWin.openFile]) h1, h2⟩

end Ecl.Props
