import Verif.Lemmas.FileBuffer

/-!
# C136: bytes written to a file, the buffer of the C library and failing disks
-/
set_option autoImplicit false

namespace Ecl.Props
open FileBuffer

variable {α : Type _}

open C136

/-- **C136, partial** (crash points): as long as writes and flushes on a file that was opened report success, the file
holds the bytes of a beginning of what was written, whatever the C library does with its buffer; the rest waits.  If
the last of these calls was a flush, or a close follows that reports success, nothing waits: the file holds everything.
Missing: calls that went wrong before (`C136_fails_flushed_later`), destruction (`C136_fails_destroyed`), opening
again (`C136_fails_reopened`). -/
theorem C136_stored_partial (b : Build) (mode : WMode) (s0 : St α)
    (ops : List (FileBuffer.Op α)) (ho : ∀ op ∈ ops, isOutput op) (s : St α) (rs : List (Obs Int))
    (h : runOps (step b) s0 (.openFile mode .ok :: ops) = some (s, rs))
    (hr : rs = .ok 1 :: ops.map fun op => .ok (fileSuccess op)) :
    (∃ n, s.disk = storedBytes s0.disk mode ((ops.map fileBytes).flatten.take n)) ∧
    (ops ≠ [] → (∀ op, ops.getLast? = some op → ∃ x, op = .flush x) →
      s.disk = storedBytes s0.disk mode (ops.map fileBytes).flatten) ∧
    ∀ x s', step b s (.close x) = .ok s' 1 → s'.disk = storedBytes s0.disk mode (ops.map fileBytes).flatten := by
  simp only [runOps, step, openFile] at h
  rcases hrun : runOps (step b) { s0 with file := .live mode 0 [], err := .noError, leaked := forget s0 } ops with
    _ | ⟨s2, rs2⟩
  · rw [hrun] at h; simp at h
  · rw [hrun] at h
    simp only [Option.map_some, Option.some.injEq, Prod.mk.injEq] at h
    obtain ⟨rfl, rfl⟩ := h
    simp only [List.cons.injEq, true_and] at hr
    have hd : ({ s0 with file := .live mode 0 [], err := .noError, leaked := forget s0 } : St α) =
        ⟨storedBytes s0.disk mode [], .live mode ([] : List α).length [], .noError, forget s0⟩ := by
      rw [stored_nil]; rfl
    rw [hd] at hrun
    obtain ⟨a, p, err, rfl, g2, g3⟩ := outputs_ok b s0.disk mode (forget s0) ops [] [] .noError s2 rs2 ho hrun hr
    simp only [List.nil_append] at g2
    refine ⟨⟨a.length, ?_⟩, fun hne hlast => ?_, fun x s' hs => ?_⟩
    · rw [← g2, List.take_append_of_le_length (Nat.le_refl _), List.take_length]
    · have : p = [] := g3 (fun _ => rfl) hlast
      rw [this, List.append_nil] at g2
      rw [g2]
    · simp only [step, close] at hs
      cases x with
      | done k =>
        simp only [Res.ok.injEq, and_true] at hs
        subst hs
        simp only []
        rw [passOn_stored, g2]
      | fails k keep e => cases b <;> simp at hs

/-- The hypotheses are met, with a C library that keeps bytes back. -/
example : runOps (step .debug) (new [9]) [.openFile .append .ok, .write [1, 2] (.done 0), .write [3] (.done 1),
      .flush (.done 0), .write [4] (.done 0)] =
    some (⟨[9, 1, 2, 3], .live .append 3 [4], .noError, []⟩, [.ok 1, .ok 2, .ok 1, .ok 1, .ok 1]) := by rfl

/-- Whether the object has a stream, and whether that is closed. -/
inductive FilePhase where
  | none | open | gone

/-- The course of a history as far as it matters for its being defined; the last component says so. -/
def filePhase : FilePhase → FileBuffer.Op α → FilePhase × Bool
  | _, .openFile _ .ok => (.open, true)
  | p, .openFile _ (.noFile _) => (p, true)
  | _, .openFile _ (.noStream _) => (.none, true)
  | .gone, _ => (.gone, false)
  | .open, .close (.fails _ _ _) => (.gone, true)
  | _, .close _ => (.none, true)
  | _, .destroy _ => (.none, true)
  | p, _ => (p, true)

/-- All calls of a history are defined. -/
def fileDefined : FilePhase → List (FileBuffer.Op α) → Bool
  | _, [] => true
  | p, op :: ops => (filePhase p op).2 && fileDefined (filePhase p op).1 ops

/-- The phase of an object. -/
def phaseOf (s : St α) : FilePhase :=
  match s.file with
  | .null => .none
  | .live _ _ _ => .open
  | .closed => .gone

/-- **C136.** Exactly which histories are undefined, in every build, whatever is written: those that write, flush,
close or destroy after a failed close, with no opening in between that succeeded at least in `::open`. -/
theorem C136_defined (b : Build) (ops : List (FileBuffer.Op α)) (s : St α) :
    (runOps (step b) s ops).isSome = fileDefined (phaseOf s) ops := by
  induction ops generalizing s with
  | nil => rfl
  | cons op ops ih =>
    have one : match step b s op with
        | .ub => (filePhase (phaseOf s) op).2 = false
        | .ok s' _ => filePhase (phaseOf s) op = (phaseOf s', true)
        | .throw s' _ => filePhase (phaseOf s) op = (phaseOf s', true) := by
      obtain ⟨disk, file, err, lk⟩ := s
      cases op with
      | openFile mode a => cases a <;> cases file <;> cases b <;> rfl
      | write bs a =>
        cases file with
        | null => cases b <;> rfl
        | closed => rfl
        | live mode pos pending =>
          simp only [step, write]
          by_cases hb : bs = []
          · rw [if_pos hb]; cases b <;> rfl
          · rw [if_neg hb]; cases a <;> cases b <;> rfl
      | flush a => cases file <;> cases a <;> cases b <;> rfl
      | close a => cases file <;> cases a <;> cases b <;> rfl
      | destroy a => cases file <;> cases a <;> rfl
    simp only [runOps, fileDefined]
    rcases hs : step b s op with ⟨s', r⟩ | ⟨s', e⟩ | _
    · rw [hs] at one
      simp only [] at one
      rw [one, Option.isSome_map, ih s']; simp
    · rw [hs] at one
      simp only [] at one
      rw [one, Option.isSome_map, ih s']; simp
    · rw [hs] at one
      simp only [] at one
      rw [one]; simp

/-- **C136, partial**: without a failed close every history is defined. -/
theorem C136_defined_partial (b : Build) (old : List α) (ops : List (FileBuffer.Op α))
    (h : ∀ k keep e, FileBuffer.Op.close (.fails k keep e) ∉ ops) : (runOps (step b) (new old) ops).isSome := by
  rw [C136_defined]
  have key : ∀ (ops : List (FileBuffer.Op α)) (p : FilePhase), p ≠ .gone →
      (∀ k keep e, FileBuffer.Op.close (.fails k keep e) ∉ ops) → fileDefined p ops = true := by
    intro ops
    induction ops with
    | nil => intros; rfl
    | cons op ops ih =>
      intro p hp h
      have h1 : (filePhase p op).2 = true ∧ (filePhase p op).1 ≠ .gone := by
        cases op with
        | openFile mode a => cases a <;> cases p <;> simp_all [filePhase]
        | write bs a => cases p <;> simp_all [filePhase]
        | flush a => cases p <;> simp_all [filePhase]
        | close a =>
          cases a with
          | done k => cases p <;> simp_all [filePhase]
          | fails k keep e => exact absurd (by simp) (h k keep e)
        | destroy a => cases p <;> simp_all [filePhase]
      rw [fileDefined, h1.1, ih _ h1.2 (fun k keep e hm => h k keep e (by simp [hm]))]; rfl
  exact key ops _ (by simp [phaseOf, new]) h

example : fileDefined (α := ℕ) .none [.openFile .new .ok, .write [1] (.fails 0 true 5), .flush (.fails 0 false 28),
    .close (.done 0), .openFile .new (.noFile 2), .destroy (.done 0)] = true := rfl

/-- **C136, refuted**: after a close that failed, the file still counts as open, although its stream is gone; the
destructor closes it again, which is undefined, in every build. -/
theorem C136_fails_closed (b : Build) (old : List α) (mode : WMode) (k : Nat) (keep : Bool) (e : Nat) (a : Ans) :
    runOps (step b) (new old) [.openFile mode .ok, .close (.fails k keep e), .destroy a] = none := by
  have := C136_defined b [.openFile mode .ok, .close (.fails k keep e), .destroy a] (new old)
  rw [← Option.not_isSome_iff_eq_none, this]
  simp [fileDefined, filePhase]

/-- **C136, refuted**: what a failed flush has lost is not missed by the next one, which reports success. -/
theorem C136_fails_flushed_later (b : Build) (old bs : List α) (hb : bs ≠ []) (mode : WMode) (e : Nat) :
    ∃ r, runOps (step b) (new old) [.openFile mode .ok, .write bs (.done 0), .flush (.fails 0 false e),
        .flush (.done 0)] =
      some (⟨old, .live mode 0 [], .noError, []⟩, [.ok 1, .ok bs.length, r, .ok 1]) ∧ r ≠ .ok 1 := by
  cases mode <;> cases b <;>
    simp [runOps, step, openFile, write, flush, new, hb, forget, passOn, OFile.overwrite]

/-- **C136, refuted**: the destructor says nothing if the bytes that waited are lost. -/
theorem C136_fails_destroyed (b : Build) (old bs : List α) (hb : bs ≠ []) (mode : WMode) (keep : Bool) (e : Nat) :
    runOps (step b) (new old) [.openFile mode .ok, .write bs (.done 0), .destroy (.fails 0 keep e)] =
      some (⟨old, .null, .noError, []⟩, [.ok 1, .ok bs.length, .ok 0]) := by
  cases mode <;> cases b <;>
    simp [runOps, step, openFile, write, destroy, new, hb, forget, passOn, OFile.overwrite]

/-- **C136, refuted**: flushing a file that was never opened reports success, and takes back the error of a write
that had failed for that reason. -/
theorem C136_fails_unopened (old bs : List α) (a : Ans) (k : Nat) :
    runOps (step .release) (new old) [.write bs a, .flush (.done k)] =
      some (⟨old, .null, .noError, []⟩, [.ok (-1), .ok 1]) ∧
    runOps (step .debug) (new old) [.write bs a, .flush (.done k)] =
      some (⟨old, .null, .noError, []⟩, [.error .openError, .ok 1]) := by
  constructor <;> simp [runOps, step, write, flush, new]

/-- **C136, refuted**: opening a file that is open forgets its stream with the bytes that wait in it; every call
reports success. -/
theorem C136_fails_reopened (b : Build) (old bs : List α) (hb : bs ≠ []) (mode : WMode) :
    runOps (step b) (new old) [.openFile mode .ok, .write bs (.done 0), .openFile mode .ok, .close (.done 0)] =
      some (⟨old, .null, .noError, [bs]⟩, [.ok 1, .ok bs.length, .ok 1, .ok 1]) := by
  cases mode <;> cases b <;>
    simp [runOps, step, openFile, write, close, new, hb, forget, passOn, OFile.overwrite]

/-- **C136, refuted**: a write that reported failure may have been taken; repeated, it is stored twice. -/
theorem C136_fails_repeated (b : Build) (old bs : List α) (hb : bs ≠ []) (k e : Nat) :
    ∃ r, runOps (step b) (new old) [.openFile .append .ok, .write bs (.fails k true e), .write bs (.done 0),
        .close (.done 0)] =
      some (⟨old ++ (bs ++ bs), .null, .noError, []⟩, [.ok 1, r, .ok bs.length, .ok 1]) ∧ r ≠ .ok bs.length := by
  have key : List.take k bs ++ (List.drop k bs ++ bs) = bs ++ bs := by
    rw [← List.append_assoc, List.take_append_drop]
  cases b <;> simp [runOps, step, openFile, write, close, new, hb, forget, passOn]
  all_goals exact key

/-- The file as `Model/Files.lean` sees it. -/
def plainFile (s : St α) : OFile α :=
  ⟨s.disk, match s.file with | .live mode pos _ => some (mode, pos) | _ => none, s.err⟩

/-- **C136.** With a C library that passes everything on at once the files are those of C71: writes leave the same
disk, the same offset and the same error and give the same result, and nothing waits. -/
theorem C136_agrees (m : Mode) (s : St α) (bs : List α) (hn : s.file ≠ .closed)
    (hp : ∀ mode pos pending, s.file = .live mode pos pending → pending = []) (k : Nat) (hk : bs.length ≤ k)
    (e : Nat) (ok : Bool) :
    match step (match m with | .debug => .debug | .release => .release) s
        (.write bs (if ok then .done k else .fails 0 false e)), OFile.write m (plainFile s) bs ok with
    | .ok s' n, .ok f n' => plainFile s' = f ∧ n = n' ∧ ∀ mode pos pending, s'.file = .live mode pos pending → pending = []
    | .throw s' x, .throw f x' => plainFile s' = f ∧ x = x' ∧
        ∀ mode pos pending, s'.file = .live mode pos pending → pending = []
    | _, _ => False := by
  obtain ⟨disk, file, err, lk⟩ := s
  have nil_new : ∀ pos, OFile.overwrite disk pos [] = disk := by intro pos; simp [OFile.overwrite]
  cases file with
  | null => cases m <;> simp [step, write, plainFile, OFile.write]
  | closed => exact absurd rfl hn
  | live mode pos pending =>
    have : pending = [] := hp mode pos pending rfl
    subst this
    by_cases hb : bs = []
    · cases m <;> simp [step, write, plainFile, OFile.write, hb]
    · cases ok
      · cases m <;> cases mode <;> simp [step, write, plainFile, OFile.write, hb, passOn, nil_new]
      · have ht : bs.take k = bs := List.take_of_length_le hk
        have hd : bs.drop k = [] := List.drop_eq_nil_of_le hk
        cases m <;> cases mode <;>
          simp [step, write, plainFile, OFile.write, hb, passOn, OFile.emit, ht, hd]

end Ecl.Props
