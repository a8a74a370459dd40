import Verif.Spec.LinkServer
import Verif.Model.Semaphore
import Verif.Model.Mutex
import Verif.Model.Files
import Mathlib.Tactic.SplitIfs

/-!
# C28, C33, C34, C71: exactly what happens, also in the cases in which the property fails
-/
set_option autoImplicit false
set_option linter.unusedSimpArgs false

namespace Ecl.Props
open Ecl Ecl.Socket

/-! ## C28 -/

/-- **C28, complete (server)**: for every history of reads, peeks and writes of 1 to `2^31 - 1` bytes and everything the
system may answer, the server reports exactly what `serverLinkStep` says. -/
theorem C28_server_all (m : Mode) (flagOf : Errno → Flag) (ops : List Op) (hs : ∀ op ∈ ops, Sane op)
    (s : Sock) (up : Bool) (hs0 : s.isOpen = up) :
    ∃ s', runOps (serverStep m flagOf) s ops = some (s', (runSpec (serverLinkStep m flagOf) up ops).2) ∧
      s'.isOpen = (runSpec (serverLinkStep m flagOf) up ops).1 := by
  have hl : ∀ (ops : List Op) (up : Bool), (∀ op ∈ ops, Sane op) →
      Legal (serverLinkStep m flagOf) (fun _ op => Sane op) up ops := by
    intro ops
    induction ops with
    | nil => intro _ _; trivial
    | cons op ops ih => intro up h; exact ⟨h op (by simp), ih _ fun o ho => h o (by simp [ho])⟩
  apply refines (serverStep m flagOf) (serverLinkStep m flagOf) (fun _ op => Sane op)
    (fun s up => s.isOpen = up) _ ops s up hs0 (hl ops up hs)
  clear hs hs0 hl s ops up
  intro s up op hR hsane
  have small : ∀ k, k < 2147483648 → s32 k = (k : Int) ∧ ¬ (k : Int) < 0 := fun k h => ⟨s32_small h, by omega⟩
  subst hR
  cases ho : s.isOpen <;> cases op with
  | read n r =>
    cases r with
    | ret k =>
      obtain ⟨e1, e2⟩ := small k (by have := hsane.2.2 k rfl; have := hsane.2.1; omega)
      by_cases hk : k = 0
      · subst hk
        simp [serverStep, Server.read, serverLinkStep, serverFound, ho, found, Res.obs, e1, hungUp, Sock.close, disconnected]
      · simp [serverStep, Server.read, serverLinkStep, serverFound, ho, found, Res.obs, e1, e2, hk, disconnected]
    | err e => cases e <;> cases m <;>
        simp [serverStep, Server.read, serverLinkStep, serverFound, ho, found, Res.obs, fail, problem, disconnected]
  | peek n r =>
    cases r with
    | ret k =>
      obtain ⟨e1, e2⟩ := small k (by have := hsane.2.2 k rfl; have := hsane.2.1; omega)
      simp [serverStep, Server.peek, serverLinkStep, serverFound, ho, found, Res.obs, e1, e2]
    | err e => cases e <;> cases m <;>
        simp [serverStep, Server.peek, serverLinkStep, serverFound, ho, found, Res.obs, fail, problem]
  | write n r =>
    cases r with
    | ret k =>
      obtain ⟨e1, e2⟩ := small k (by have := hsane.2.2 k rfl; have := hsane.2.1; omega)
      simp [serverStep, Server.write, serverLinkStep, serverFound, ho, found, Res.obs, e1, e2]
    | err e => cases e <;> cases m <;>
        simp [serverStep, Server.write, serverLinkStep, serverFound, ho, found, Res.obs, fail, problem, hungUp, Sock.close]

-- non-vacuity: bytes, a reset, the hang-up, and calls after it
example : (∀ op ∈ [Op.read 8 (.ret 5), .read 8 (.err .connReset), .read 8 (.ret 0), .write 3 (.ret 3), .read 1 (.ret 1),
      .write 3 (.err .pipe)], Sane op) ∧
    (runSpec (serverLinkStep .release fun _ => .unknownError) true [Op.read 8 (.ret 5), .read 8 (.err .connReset),
      .read 8 (.ret 0), .write 3 (.ret 3), .read 1 (.ret 1), .write 3 (.err .pipe)]).2 =
      [.ok 5, .ok (-1), .ok (-3), .ok 3, .ok (-2), .ok (-3)] := by
  refine ⟨?_, rfl⟩
  intro op hop
  simp only [List.mem_cons, List.not_mem_nil, or_false] at hop
  rcases hop with rfl | rfl | rfl | rfl | rfl | rfl <;> simp [Sane]

/-! ## C33 -/

/-- **C33, complete decision**: for every current time and every duration whose nanoseconds are less than a second in
absolute value, the deadline is the exact one, but for one second too many when the nanoseconds add up to 999999999; it is
a valid timespec exactly if they do not add up to less than zero. -/
theorem C33_decides (s n ds dn : Int) (hn : 0 ≤ n ∧ n < 1000000000) (hd : -1000000000 < dn ∧ dn < 1000000000)
    (h1 : InLong (s + ds)) (h2 : InLong (s + ds + 1)) :
    ∃ s' n', Semaphore.deadline s n ds dn = .ok (s', n') ∧
      s' * 1000000000 + n' = (s * 1000000000 + n) + (ds * 1000000000 + dn) +
        (if n + dn = 999999999 then 1000000000 else 0) ∧
      ((0 ≤ n' ∧ n' < 1000000000) ↔ 0 ≤ n + dn) := by
  have h3 : InLong (n + dn) := by unfold InLong longMin longMax; omega
  unfold Semaphore.deadline
  rw [if_neg (fun hc => hc h1)]
  simp only
  rw [if_neg (fun hc => hc h3)]
  by_cases hc : n + dn ≥ 999999999
  · rw [if_pos hc, if_neg (fun hc => hc h2)]
    refine ⟨_, _, rfl, ?_, ?_⟩ <;> rw [Int.tmod_eq_emod_of_nonneg (by omega)]
    · split_ifs <;> omega
    · omega
  · rw [if_neg hc]
    refine ⟨_, _, rfl, ?_, ?_⟩
    · have e : (n + dn).tmod 1000000000 = n + dn := by
        rcases Int.le_total 0 (n + dn) with h | h
        · rw [Int.tmod_eq_emod_of_nonneg h]; omega
        · have e2 : (-(n + dn)).tmod 1000000000 = -(n + dn) := by rw [Int.tmod_eq_emod_of_nonneg (by omega)]; omega
          rw [Int.neg_tmod] at e2
          omega
      rw [e]
      split_ifs <;> omega
    · have e : (n + dn).tmod 1000000000 = n + dn := by
        rcases Int.le_total 0 (n + dn) with h | h
        · rw [Int.tmod_eq_emod_of_nonneg h]; omega
        · have e2 : (-(n + dn)).tmod 1000000000 = -(n + dn) := by rw [Int.tmod_eq_emod_of_nonneg (by omega)]; omega
          rw [Int.neg_tmod] at e2
          omega
      rw [e]
      omega

example : Semaphore.deadline 5 100000000 0 (-500000000) = .ok (5, -400000000) ∧
    Semaphore.deadline 5 600000000 1 (500000000) = .ok (7, 100000000) := by decide

/-! ## C34 -/

/-- **C34, complete decision**: a free mutex is acquired at once; one's own is reported in debug builds, and waited for in
vain in release builds; one of another thread is acquired when it is let go, if that is not later than the *duration*
after the *epoch*, and else the call gives up then, or at once if that is past; with nanoseconds out of range the call
throws in debug builds, and reports success without acquiring anything in release builds. -/
theorem C34_decides (m : Mode) (s : Mutex.Mutex) (t : Nat) (now : Int) (free : Option Int) (ds dn : Int) :
    (s.owner = none → ∃ s', Mutex.trylockFor m s t now free ds dn = .ok s' (true, now) ∧ s'.owner = some t) ∧
    (s.owner = some t →
      (m = .debug → Mutex.trylockFor m s t now free ds dn = .throw s .usageError) ∧
      (m = .release → 0 ≤ dn ∧ dn < 1000000000 →
        Mutex.trylockFor m s t now free ds dn = .ok s (false, max now (ds * 1000000000 + dn)))) ∧
    (∀ u, u ≠ t → s.owner = some u → 0 ≤ dn ∧ dn < 1000000000 →
      (∀ f, free = some f → f ≤ ds * 1000000000 + dn →
        ∃ s', Mutex.trylockFor m s t now free ds dn = .ok s' (true, f) ∧ s'.owner = some t) ∧
      ((∀ f, free = some f → ds * 1000000000 + dn < f) →
        Mutex.trylockFor m s t now free ds dn = .ok s (false, max now (ds * 1000000000 + dn)))) ∧
    (∀ u, s.owner = some u → dn < 0 ∨ 1000000000 ≤ dn →
      (m = .debug → Mutex.trylockFor m s t now free ds dn = .throw s .usageError) ∧
      (m = .release → ∃ s', Mutex.trylockFor m s t now free ds dn = .ok s' (true, now) ∧ s'.owner = some u)) := by
  obtain ⟨o, k⟩ := s
  refine ⟨?_, ?_, ?_, ?_⟩
  · rintro h
    simp only at h
    subst h
    simp [Mutex.trylockFor, Mutex.sysTimed]
  · rintro h
    simp only at h
    subst h
    constructor
    · rintro rfl
      simp [Mutex.trylockFor, Mutex.sysTimed, Mutex.timedFlag]
    · rintro rfl hd
      have hd' : ¬ (dn < 0 ∨ dn ≥ 1000000000) := by omega
      simp [Mutex.trylockFor, Mutex.sysTimed, hd']
  · rintro u hu h hd
    simp only at h
    subst h
    have hd' : ¬ (dn < 0 ∨ dn ≥ 1000000000) := by omega
    constructor
    · rintro f rfl hf
      simp [Mutex.trylockFor, Mutex.sysTimed, hd', hu, hf]
    · intro hf
      cases free with
      | none => simp [Mutex.trylockFor, Mutex.sysTimed, hd', hu]
      | some f =>
        have : ¬ f ≤ ds * 1000000000 + dn := by have := hf f rfl; omega
        simp [Mutex.trylockFor, Mutex.sysTimed, hd', hu, this]
  · rintro u h hd
    simp only at h
    subst h
    have hd' : dn < 0 ∨ dn ≥ 1000000000 := hd
    constructor
    · rintro rfl
      by_cases hu : u = t
      · simp [Mutex.trylockFor, Mutex.sysTimed, Mutex.timedFlag, hu]
      · simp [Mutex.trylockFor, Mutex.sysTimed, Mutex.timedFlag, hu, hd']
    · rintro rfl
      simp [Mutex.trylockFor, Mutex.sysTimed, hd']

example : Mutex.trylockFor .debug ⟨some 1, 1⟩ 0 5 (some 7) 0 9 = .ok ⟨some 0, 2⟩ (true, 7) := by decide

/-! ## C71 -/

/-- **C71, complete**: what the disk holds after a file is opened, written and closed, in both modes, whatever it held
before: in mode `New` the bytes written replace as many bytes at the beginning, and the rest stays. -/
theorem C71_contents_all {α : Type _} (m : Mode) (old : List α) (ws : List (List α)) (hne : [] ∉ ws) (mode : WMode) :
    ∃ f, OFile.writes m ((⟨old, none, .noError⟩ : OFile α).openFile mode) ws = .ok f ∧
      f.close.disk = (match mode with
        | .new => ws.flatten ++ old.drop ws.flatten.length
        | .append => old ++ ws.flatten) := by
  have key : ∀ (ws : List (List α)) (disk : List α) (pos : Nat), [] ∉ ws → pos ≤ disk.length →
      ∃ f, OFile.writes m (⟨disk, some (mode, pos), .noError⟩ : OFile α) ws = .ok f ∧
        f.disk = (match mode with
          | .new => disk.take pos ++ ws.flatten ++ disk.drop (pos + ws.flatten.length)
          | .append => disk ++ ws.flatten) := by
    intro ws
    induction ws with
    | nil => intro disk pos _ _; refine ⟨_, rfl, ?_⟩; cases mode <;> simp
    | cons w ws ih =>
      intro disk pos hw hp
      simp only [List.mem_cons, not_or] at hw
      have hw' : w ≠ [] := fun e => hw.1 e.symm
      cases mode with
      | new =>
        obtain ⟨f, h1, h2⟩ := ih (OFile.overwrite disk pos w) (pos + w.length) hw.2
          (by simp [OFile.overwrite]; omega)
        refine ⟨f, ?_, ?_⟩
        · simp [OFile.writes, OFile.write, hw', OFile.emit, h1]
        · rw [h2]
          simp only [OFile.overwrite, List.flatten_cons]
          have e1 : (disk.take pos).length = pos := by simp; omega
          have e2 : (disk.take pos ++ w).length = pos + w.length := by simp; omega
          rw [List.take_append_of_le_length (by omega), List.take_of_length_le (by omega),
            List.drop_append, List.drop_eq_nil_of_le (by omega), List.drop_drop]
          simp only [List.nil_append, List.append_assoc, List.length_append]
          congr 4
          simp only [List.length_take]; omega
      | append =>
        obtain ⟨f, h1, h2⟩ := ih (disk ++ w) (pos + w.length) hw.2 (by simp; omega)
        refine ⟨f, ?_, ?_⟩
        · simp [OFile.writes, OFile.write, hw', OFile.emit, h1]
        · rw [h2]; simp
  obtain ⟨f, h1, h2⟩ := key ws old 0 hne (by omega)
  refine ⟨f, h1, ?_⟩
  simp only [OFile.close, h2]
  cases mode with
  | new => simp only [List.take_zero, List.nil_append, Nat.zero_add]
  | append => rfl

example : ([] : List Nat) ∉ [[1], [2, 3]] ∧ [[1], [2, 3]].flatten ++ [7, 8, 9, 10].drop 3 = [1, 2, 3, 10] := by decide

end Ecl.Props
