import Verif.Lemmas.SharedFiles

/-!
# C25: sharing of files, C26: completeness of shared output, C71: file modes
-/
set_option autoImplicit false
set_option linter.unusedSimpArgs false

namespace Ecl.Props
open Ecl.Spec
open Shared (Op Out Ev Env World)
variable {α : Type _}

/-! ## C25 -/

/-- Calls within the guard of `C25_sharing_partial`: handles are constructed by the RAII constructor on
files that can be opened, and used while alive; `flush` is only called with bytes pending. -/
def shLegal (env : Env) (t : Sharing α) : Op α → Prop
  | .construct h n => t.nameOf h = none ∧ env.canOpen n = true
  | .put h _ => (t.nameOf h).isSome
  | .write h bs => (t.nameOf h).isSome ∧ bs.length < 2 ^ 32
  | .flush h => (t.nameOf h).isSome ∧ t.pend h ≠ []
  | .count h => (t.nameOf h).isSome
  | .destroy h => (t.nameOf h).isSome
  | .default _ => False
  | .openFile _ _ => False

theorem share_step (m : Mode) (env : Env) (hw : ∀ n, env.canWrite n = true) (w : World α)
    (t : Sharing α) (op : Op α) (hR : Shared.Rel w t) (hl : shLegal env t op) :
    ∃ w', (Shared.step m env w op).obs = some (w', (shareStep t op).2) ∧
      Shared.Rel w' (shareStep t op).1 := by
  cases op with
  | construct h n =>
    obtain ⟨w', h1, h2⟩ := hR.construct m env h n hl.1 hl.2
    exact ⟨w', by simp [h1, Res.obs, shareStep], h2⟩
  | default h => exact absurd hl id
  | openFile h n => exact absurd hl id
  | put h b =>
    obtain ⟨n, hn⟩ := Option.isSome_iff_exists.1 hl
    obtain ⟨id, a1, a2, a3⟩ := hR.alive h n hn
    obtain ⟨id', b1, _, b2⟩ := hR.named n (List.mem_map_of_mem (f := Prod.snd) (Shared.mem_of_nameOf hn))
    rw [a1] at b1; cases b1
    have hnf : ¬ (Buf.full Shared.cap (t.pend h) = true) := by
      simp only [Buf.full, beq_iff_eq, Shared.cap]; omega
    have hlt : (t.pend h).length < Shared.cap := a3
    by_cases hfull : Buf.full Shared.cap (t.pend h ++ [b]) = true
    · have hlen : (t.pend h ++ [b]).length = 4096 := by simpa [Buf.full, Shared.cap] using hfull
      refine ⟨_, ?_, by simpa [shareStep, hn] using hR.take h n [b] hn id _ _ rfl rfl a1⟩
      have e := Shared.flush_ok m env
        { w with handles := Shared.upd w.handles h (some ⟨some id, t.pend h ++ [b]⟩) } h id n _
        (t.pend h ++ [b]) b2 (hw n) (by simp)
      unfold Shared.step
      rw [if_neg (by simp [hR.hung])]
      simp only [a2, Shared.put, Buf.append1]
      rw [if_neg hnf, if_pos hlt]
      simp only [hfull, if_true, e, Shared.R.toRes, Res.obs, shareStep, hn]
      have e1 : blocks (t.pend h ++ [b]) = t.pend h ++ [b] := by
        have := Shared.blocks_append (a := t.pend h ++ [b]) [] hlen
        simpa [Shared.blocks_small] using this
      have e2 : leftover (t.pend h ++ [b]) = [] := by
        have := Shared.leftover_append (a := t.pend h ++ [b]) [] hlen
        simpa [Shared.leftover_small] using this
      rw [e1, e2, Shared.upd_upd]; rfl
    · have hlen : (t.pend h ++ [b]).length < 4096 := by
        have : ¬ (t.pend h ++ [b]).length = 4096 := by simpa [Buf.full, Shared.cap] using hfull
        simp only [List.length_append, List.length_cons, List.length_nil] at *; omega
      refine ⟨_, ?_, by simpa [shareStep, hn] using hR.take h n [b] hn id _ _ rfl rfl a1⟩
      unfold Shared.step
      rw [if_neg (by simp [hR.hung])]
      simp only [a2, Shared.put, Buf.append1]
      rw [if_neg hnf, if_pos hlt]
      simp only
      rw [if_neg hfull, Shared.blocks_small hlen, Shared.leftover_small hlen, List.append_nil,
        Shared.upd_self w.file n _ rfl]
      simp only [Shared.R.toRes, Res.obs, shareStep, hn]
      rfl
  | write h bs =>
    obtain ⟨n, hn⟩ := Option.isSome_iff_exists.1 hl.1
    obtain ⟨id, a1, a2, a3⟩ := hR.alive h n hn
    obtain ⟨id', b1, _, b2⟩ := hR.named n (List.mem_map_of_mem (f := Prod.snd) (Shared.mem_of_nameOf hn))
    rw [a1] at b1; cases b1
    refine ⟨_, ?_, by simpa [shareStep, hn] using hR.take h n bs hn id _ _ rfl rfl a1⟩
    have hlen : bs.length < 4294967296 := by simpa using hl.2
    unfold Shared.step
    rw [if_neg (by simp [hR.hung])]
    simp only [a2, Shared.write]
    rw [if_pos hlen, Shared.loop_ok m env bs.length h id n _ (hw n) _ w (t.pend h) bs b2 a2 a3 (by omega)]
    simp [Shared.R.toRes, Res.obs, shareStep, hn]
  | flush h =>
    obtain ⟨n, hn⟩ := Option.isSome_iff_exists.1 hl.1
    obtain ⟨id, a1, a2, a3⟩ := hR.alive h n hn
    obtain ⟨id', b1, _, b2⟩ := hR.named n (List.mem_map_of_mem (f := Prod.snd) (Shared.mem_of_nameOf hn))
    rw [a1] at b1; cases b1
    have e := Shared.flush_ok m env w h id n _ (t.pend h) b2 (hw n) hl.2
    refine ⟨{ w with file := Shared.upd w.file n (w.file n ++ t.pend h),
                     handles := Shared.upd w.handles h (some ⟨some id, []⟩) },
      by simp only [Shared.step, hR.hung, Bool.false_eq_true, if_false, a2, e,
        Shared.R.toRes, Res.obs, shareStep, hn], ?_⟩
    simp only [shareStep, hn]
    refine ⟨hR.hung, hR.locked, hR.nodup, ?_, ?_, hR.named, hR.unnamed, ?_, hR.log⟩
    · intro h' e'
      have e'' : t.nameOf h' = none := e'
      have : h' ≠ h := by rintro rfl; rw [hn] at e''; cases e''
      simp only [Shared.upd_ne _ _ this]; exact hR.dead h' e''
    · intro h' n' e'
      have e'' : t.nameOf h' = some n' := e'
      by_cases hh : h' = h
      · subst hh
        rw [hn] at e''; cases e''
        exact ⟨id, a1, by simp [setAt], by simp [setAt]⟩
      · obtain ⟨i, c1, c2, c3⟩ := hR.alive h' n' e''
        exact ⟨i, c1, by simp [Shared.upd_ne _ _ hh, setAt, hh, c2], by simpa [setAt, hh] using c3⟩
    · simp only [hR.file]; rfl
  | count h =>
    obtain ⟨n, hn⟩ := Option.isSome_iff_exists.1 hl
    obtain ⟨id, a1, a2, a3⟩ := hR.alive h n hn
    obtain ⟨id', b1, _, b2⟩ := hR.named n (List.mem_map_of_mem (f := Prod.snd) (Shared.mem_of_nameOf hn))
    rw [a1] at b1; cases b1
    exact ⟨w, by simp [Shared.step, hR.hung, a2, b2, Res.obs, shareStep, hn], by simpa [shareStep, hn] using hR⟩
  | destroy h =>
    obtain ⟨n, hn⟩ := Option.isSome_iff_exists.1 hl
    obtain ⟨w', h1, h2⟩ := hR.destroy m env h n hn
    exact ⟨w', by simp [h1, Res.obs, shareStep, hn], h2⟩

/-- **C25, partial**: over every history of calls within the guard, on files that accept bytes, every call
returns what the specification returns, the files are opened and closed exactly when it says (opened
with the first handle of a name, closed with the last), and receive exactly the bytes it says.  Missing:
failing opens, flushes without pending bytes, failing writes and the default constructor (see the
`C25_fails` theorems). -/
theorem C25_sharing_partial (m : Mode) (env : Env) (hw : ∀ n, env.canWrite n = true) (ops : List (Op α))
    (hl : Legal shareStep (shLegal env) Sharing.init ops) :
    ∃ w, runOps (Shared.step m env) World.init ops = some (w, (runSpec shareStep Sharing.init ops).2) ∧
      w.log = (runSpec shareStep Sharing.init ops).1.log ∧
      w.file = (runSpec shareStep Sharing.init ops).1.file := by
  obtain ⟨w, h1, h2⟩ := refines (Shared.step m env) shareStep (shLegal env) Shared.Rel
    (fun s t op => share_step m env hw s t op) ops _ _ Shared.Rel.init hl
  exact ⟨w, h1, h2.log, h2.file⟩

/-- **C25, partial**: at the end of every history within the guard, a file has been opened exactly once
more often than closed if a handle on it is alive, and equally often otherwise. -/
theorem C25_opened_once_partial (m : Mode) (env : Env) (hw : ∀ n, env.canWrite n = true)
    (ops : List (Op α)) (hl : Legal shareStep (shLegal env) Sharing.init ops) (n : Nat) :
    ∃ w, (runOps (Shared.step m env) World.init ops).map Prod.fst = some w ∧
      w.log.count (.opened n) = w.log.count (.closed n) +
        (if n ∈ (runSpec shareStep Sharing.init ops).1.live.map Prod.snd then 1 else 0) := by
  obtain ⟨w, h1, h2, _⟩ := C25_sharing_partial m env hw ops hl
  refine ⟨w, by rw [h1]; rfl, ?_⟩
  rw [h2]
  have key : ∀ (ops : List (Op α)) (t : Sharing α), (t.live.map Prod.fst).Nodup →
      Legal shareStep (shLegal env) t ops →
      t.log.count (.opened n) = t.log.count (.closed n) + (if n ∈ t.live.map Prod.snd then 1 else 0) →
      ((runSpec shareStep t ops).1.live.map Prod.fst).Nodup ∧
      (runSpec shareStep t ops).1.log.count (.opened n) = (runSpec shareStep t ops).1.log.count (.closed n) +
        (if n ∈ (runSpec shareStep t ops).1.live.map Prod.snd then 1 else 0) := by
    intro ops
    induction ops with
    | nil => intro t hnd _ h; exact ⟨hnd, h⟩
    | cons op ops ih =>
      intro t hnd hl h
      simp only [runSpec]
      obtain ⟨l1, l2⟩ := hl
      suffices hs : ((shareStep t op).1.live.map Prod.fst).Nodup ∧
          (shareStep t op).1.log.count (.opened n) = (shareStep t op).1.log.count (.closed n) +
            (if n ∈ (shareStep t op).1.live.map Prod.snd then 1 else 0) from ih _ hs.1 l2 hs.2
      cases op with
      | construct h' k =>
        refine ⟨?_, ?_⟩
        · simp only [shareStep, List.map_cons, List.nodup_cons]
          exact ⟨Shared.lookup_none _ _ l1.1, hnd⟩
        · simp only [shareStep, List.map_cons, List.mem_cons]
          by_cases hk : k ∈ t.live.map Prod.snd
          · rw [if_pos hk, h]
            by_cases hn : n = k
            · subst hn; rw [if_pos hk, if_pos (.inl rfl)]
            · simp only [hn, false_or]
          · rw [if_neg hk]
            by_cases hn : n = k
            · subst hn
              rw [if_neg hk] at h
              simp [h]
            · have hn' : ¬ k = n := fun e => hn e.symm
              simp only [hn, false_or, List.count_append, h]
              simp [hn']
      | default h' => exact absurd l1 id
      | openFile h' k => exact absurd l1 id
      | put h' b =>
        obtain ⟨k, hk⟩ := Option.isSome_iff_exists.1 l1
        simp only [shareStep, hk]; exact ⟨hnd, h⟩
      | write h' b =>
        obtain ⟨k, hk⟩ := Option.isSome_iff_exists.1 l1.1
        simp only [shareStep, hk]; exact ⟨hnd, h⟩
      | flush h' =>
        obtain ⟨k, hk⟩ := Option.isSome_iff_exists.1 l1.1
        simp only [shareStep, hk]; exact ⟨hnd, h⟩
      | count h' =>
        obtain ⟨k, hk⟩ := Option.isSome_iff_exists.1 l1
        simp only [shareStep, hk]; exact ⟨hnd, h⟩
      | destroy h' =>
        obtain ⟨k, hk⟩ := Option.isSome_iff_exists.1 l1
        have hmem := Shared.mem_of_nameOf hk
        simp only [shareStep, hk]
        refine ⟨hnd.sublist (List.filter_sublist.map _), ?_⟩
        by_cases hkl : k ∈ (t.live.filter fun p => p.1 ≠ h').map Prod.snd
        · rw [if_pos hkl, h]
          by_cases hn : n = k
          · subst hn
            rw [if_pos hkl, if_pos (List.mem_map_of_mem (f := Prod.snd) hmem)]
          · have := Shared.count_filter t.live h' k n hnd hmem
            rw [if_neg hn] at this
            have e : n ∈ (t.live.filter fun p => p.1 ≠ h').map Prod.snd ↔ n ∈ t.live.map Prod.snd := by
              rw [Shared.mem_names, Shared.mem_names, ← this]; simp
            simp only [e]
        · rw [if_neg hkl]
          by_cases hn : n = k
          · subst hn
            rw [if_pos (List.mem_map_of_mem (f := Prod.snd) hmem)] at h
            rw [if_neg hkl]
            simp [h]
          · have := Shared.count_filter t.live h' k n hnd hmem
            rw [if_neg hn] at this
            have e : n ∈ (t.live.filter fun p => p.1 ≠ h').map Prod.snd ↔ n ∈ t.live.map Prod.snd := by
              rw [Shared.mem_names, Shared.mem_names, ← this]; simp
            have hn' : ¬ k = n := fun e => hn e.symm
            simp only [e]
            simp [hn', h]
  have fin := key ops Sharing.init (by simp [Sharing.init]) hl (by simp [Sharing.init])
  exact fin.2

/-- Environment in which file 0 cannot be opened, everything else works. -/
private def env0 : Env := ⟨fun n => n != 0, fun _ => true⟩

-- non-vacuity: two handles on file 7, one on file 9
example : Legal shareStep (shLegal env0) (Sharing.init : Sharing Char)
    [.construct 1 7, .construct 2 7, .write 1 ['a'], .construct 3 9, .put 2 'b', .flush 1, .destroy 1,
      .count 2, .destroy 2, .construct 1 7] := by
  simp [Legal, shLegal, shareStep, Sharing.init, Sharing.nameOf, Sharing.take, env0, setAt, List.lookup,
    leftover]
example : (runSpec shareStep (Sharing.init : Sharing Char) [.construct 1 7, .construct 2 7, .destroy 1,
    .count 2, .destroy 2]).1.log = [.opened 7, .closed 7] := by decide

namespace C25

theorem hung_stays (m : Mode) (env : Env) (w : World α) (hw : w.hung = true) : ∀ ops : List (Shared.Op α),
    runOps (Shared.step m env) w ops = some (w, ops.map fun _ => .ok .hangs) := by
  intro ops
  induction ops with
  | nil => rfl
  | cons op ops ih => simp [runOps, Shared.step, hw, ih]

theorem locked_throws (env : Env) : ∀ (later : List (Nat × Nat)) (w : World α), w.hung = false → w.locked = true →
    (∀ h, w.handles h = none) → ∃ w', runOps (Shared.step .debug env) w (later.map fun p => .construct p.1 p.2) =
      some (w', later.map fun _ => .error .usageError) ∧ w'.log = w.log := by
  intro later
  induction later with
  | nil => intro w _ _ _; exact ⟨w, rfl, rfl⟩
  | cons p later ih =>
    intro w hw hl hh
    have h1 : ∃ w1, (Shared.step .debug env w (.construct p.1 p.2)).obs = some (w1, .error .usageError) ∧
        w1.hung = false ∧ w1.locked = true ∧ (∀ h, w1.handles h = none) ∧ w1.log = w.log := by
      simp [Shared.step, hw, hh, Shared.openInst, Shared.register, Shared.lock, hl, Res.obs]
    obtain ⟨w1, e, h2, h3, h4, h5⟩ := h1
    obtain ⟨w', e', h6⟩ := ih w1 h2 h3 h4
    exact ⟨w', by rw [List.map_cons, runOps_cons, e]; simp [e'], by rw [h6, h5]⟩

theorem first_open (m : Mode) (env : Env) (bad : Nat) (hb : env.canOpen bad = false) :
    ∃ w1, (Shared.step m env (World.init : World α) (.construct 0 bad)).obs = some (w1, .error .openError) ∧
      w1.hung = false ∧ w1.locked = true ∧ (∀ h, w1.handles h = none) ∧ w1.log = [] := by
  simp [Shared.step, World.init, Shared.openInst, Shared.register, Shared.lock, hb, Res.obs]

end C25

/-- **C25, refuted**: after one failed open the manager's mutex stays locked: every later open throws in
debug builds, however often it is tried, and never returns in release builds, although the files themselves are fine.
What the program would have done after that never happens. -/
theorem C25_fails_failed_open (env : Env) (bad good : Nat) (later : List (Nat × Nat)) (rest : List (Shared.Op α))
    (hb : env.canOpen bad = false) :
    (∃ w, runOps (Shared.step .debug env) (World.init : World α) (.construct 0 bad :: later.map fun p => .construct p.1 p.2) =
      some (w, .error .openError :: later.map fun _ => .error .usageError) ∧ w.log = []) ∧
    (∃ w, runOps (Shared.step .release env) (World.init : World α) (.construct 0 bad :: .construct 1 good :: rest) =
      some (w, .error .openError :: .ok .hangs :: rest.map fun _ => .ok .hangs) ∧ w.log = []) := by
  constructor
  · obtain ⟨w1, e, h2, h3, h4, h5⟩ := C25.first_open (α := α) .debug env bad hb
    obtain ⟨w, e', h6⟩ := C25.locked_throws env later w1 h2 h3 h4
    exact ⟨w, by rw [runOps_cons, e]; simp [e'], by rw [h6, h5]⟩
  · obtain ⟨w1, e, h2, h3, h4, h5⟩ := C25.first_open (α := α) .release env bad hb
    have h : ∃ w2, (Shared.step .release env w1 (.construct 1 good)).obs = some (w2, .ok .hangs) ∧ w2.hung = true ∧ w2.log = [] := by
      simp [Shared.step, h2, h4, Shared.openInst, Shared.register, Shared.lock, h3, Res.obs, h5]
    obtain ⟨w2, e2, h6, h7⟩ := h
    exact ⟨w2, by rw [runOps_cons, e, Option.bind_some, runOps_cons, e2]; simp [C25.hung_stays .release env w2 h6 rest], h7⟩

example : env0.canOpen 0 = false ∧ env0.canOpen 1 = true := by decide

/-- **C25, refuted** (release builds): flushing a handle that has nothing buffered, destroying it and
opening the same file again uses a deleted object. -/
theorem C25_fails_empty_flush (env : Env) (n : Nat) (ho : env.canOpen n = true) :
    (∃ w, runOps (Shared.step .release env) (World.init : World α)
      [.construct 0 n, .flush 0, .destroy 0] = some (w, [.ok .unit, .ok (.bool false), .ok .unit])) ∧
    runOps (Shared.step .release env) (World.init : World α)
      [.construct 0 n, .flush 0, .destroy 0, .construct 0 n] = none := by
  constructor <;>
    simp [runOps, Shared.step, World.init, Shared.openInst, Shared.register, Shared.lock, ho, Shared.upd,
      Shared.flush, Shared.destroy, Shared.free, Shared.R.toRes]

/-- **C25, refuted** (release builds): with two handles on a file, an empty flush through one and its
destruction leaves the other with a dangling pointer. -/
theorem C25_fails_shared_error (env : Env) (n : Nat) (ho : env.canOpen n = true) :
    runOps (Shared.step .release env) (World.init : World α)
      [.construct 0 n, .construct 1 n, .flush 0, .destroy 0, .count 1] = none := by
  simp [runOps, Shared.step, World.init, Shared.openInst, Shared.register, Shared.lock, ho, Shared.upd,
      Shared.flush, Shared.destroy, Shared.free, Shared.R.toRes]

/-- **C25, refuted**: the default constructor leaves the handle's pointer uninitialised, so destroying a
handle that was never opened is undefined, in both build modes. -/
theorem C25_fails_default_constructor (m : Mode) (env : Env) :
    runOps (Shared.step m env) (World.init : World α) [.default 0, .destroy 0] = none := by
  simp [runOps, Shared.step, World.init, Shared.destroy, Shared.R.toRes, Shared.upd]

/-- **C25, refuted**: opening a second file through an open handle leaks the first one: it is never
closed, in both build modes. -/
theorem C25_fails_reopen (m : Mode) (env : Env) (a b : Nat) (hab : a ≠ b) (ha : env.canOpen a = true)
    (hb : env.canOpen b = true) :
    ∃ w, runOps (Shared.step m env) (World.init : World α)
      [.construct 0 a, .openFile 0 b, .destroy 0] = some (w, [.ok .unit, .ok (.bool true), .ok .unit]) ∧
      w.log = [.opened a, .opened b, .closed b] := by
  have hba : ¬ b = a := fun e => hab e.symm
  simp [runOps, Shared.step, World.init, Shared.openInst, Shared.register, Shared.lock, ha, hb, Shared.upd,
      Shared.destroy, Shared.deregister, Shared.free, Shared.R.toRes, hab, hba]

/-! ## C26 -/

/-- How often a history constructs handle `h`. -/
def constructions (h : Nat) (ops : List (Op α)) : Nat :=
  ops.countP fun o => match o with | .construct h' _ => h' == h | _ => false

/-- **C26, partial**: take any history within the guard in which all bytes written through a handle carry
its number.  Then for a handle `h` that was constructed once, on file `n`, and is still alive, the bytes
of `h` in the file are, in order, all bytes written through `h` except fewer than 4096 still pending; and
none are pending after a flush.  Missing: bytes pending at destruction are lost
(`C26_fails_destruction`). -/
theorem C26_complete_partial (m : Mode) (env : Env) (hw : ∀ n, env.canWrite n = true)
    (ops : List (Op (Nat × α))) (hl : Legal shareStep (shLegal env) Sharing.init ops) (h n : Nat)
    (htag : ∀ op ∈ ops, ∀ k, ∀ p ∈ sentTo k op, p.1 = k) (honce : constructions h ops ≤ 1)
    (halive : (runSpec shareStep Sharing.init ops).1.nameOf h = some n) :
    ∃ w pend, (runOps (Shared.step m env) World.init ops).map Prod.fst = some w ∧
      (w.file n).filter (fun p => p.1 = h) ++ pend = (ops.map (sentTo h)).flatten ∧
      pend.length < 4096 ∧
      (ops.getLast? = some (.flush h) → pend = []) := by
  obtain ⟨w, h1, _, h3⟩ := C25_sharing_partial m env hw ops hl
  -- the three phases of the handle's life
  let P (t : Sharing (Nat × α)) (S : List (Nat × α)) (left : Nat) : Prop :=
    (∀ k, ∀ p ∈ t.pend k, p.1 = k) ∧
    ((left ≤ 1 ∧ t.nameOf h = none ∧ S = [] ∧ (∀ k, (t.file k).filter (fun p => p.1 = h) = [])) ∨
     (left = 0 ∧ ∃ n, t.nameOf h = some n ∧ (t.file n).filter (fun p => p.1 = h) ++ t.pend h = S ∧
        (t.pend h).length < 4096) ∨
     (left = 0 ∧ t.nameOf h = none))
  have filt : ∀ (k : Nat) (l : List (Nat × α)), (∀ p ∈ l, p.1 = k) →
      l.filter (fun p => p.1 = h) = if k = h then l else [] := by
    intro k l hl
    by_cases hk : k = h
    · subst hk; rw [if_pos rfl, List.filter_eq_self]; intro p hp; simp [hl p hp]
    · rw [if_neg hk, List.filter_eq_nil_iff]; intro p hp; simp [hl p hp, hk]
  -- taking bytes through handle `k`
  have hsend : ∀ (t : Sharing (Nat × α)) (S : List (Nat × α)) (left k nk : Nat) (bs : List (Nat × α)),
      P t S left → t.nameOf k = some nk → (∀ p ∈ bs, p.1 = k) →
      P (t.take k nk bs) (S ++ if k = h then bs else []) left := by
    intro t S left k nk bs hP hk hbs
    obtain ⟨hp, hP⟩ := hP
    have hall : ∀ p ∈ t.pend k ++ bs, p.1 = k := by
      intro p hp'; rcases List.mem_append.1 hp' with h' | h'
      · exact hp k p h'
      · exact hbs p h'
    have hblk : ∀ p ∈ blocks (t.pend k ++ bs), p.1 = k := fun p hp' => hall p (List.mem_of_mem_take hp')
    have hlft : ∀ p ∈ leftover (t.pend k ++ bs), p.1 = k := fun p hp' => hall p (List.mem_of_mem_drop hp')
    refine ⟨?_, ?_⟩
    · intro k' p hp'
      simp only [Sharing.take, setAt] at hp'
      split at hp'
      · rename_i e; subst e; exact hlft p hp'
      · exact hp k' p hp'
    · rcases hP with ⟨a1, a2, a3, a4⟩ | ⟨a1, n0, a2, a3, a4⟩ | ⟨a1, a2⟩
      · left
        have hkh : k ≠ h := by rintro rfl; rw [a2] at hk; cases hk
        refine ⟨a1, a2, by simp [a3, hkh], ?_⟩
        intro j
        simp only [Sharing.take, setAt]
        split
        · rename_i e; subst e
          rw [List.filter_append, a4, filt k _ hblk, if_neg hkh]; rfl
        · exact a4 j
      · right; left
        refine ⟨a1, n0, a2, ?_, ?_⟩
        · by_cases hkh : k = h
          · subst hkh
            rw [hk] at a2; cases a2
            simp only [Sharing.take, setAt, if_true]
            rw [List.filter_append, filt k _ hblk, if_pos rfl, List.append_assoc,
              Shared.blocks_leftover, ← a3]
            simp
          · have hhk : ¬ h = k := fun e => hkh e.symm
            simp only [Sharing.take, setAt, if_neg hhk, if_neg hkh, List.append_nil]
            split
            · rename_i e; subst e
              rw [List.filter_append, filt k _ hblk, if_neg hkh, List.append_nil]; exact a3
            · exact a3
        · simp only [Sharing.take, setAt]
          split
          · exact Shared.leftover_length _
          · exact a4
      · right; right; exact ⟨a1, a2⟩
  have key : ∀ (ops : List (Op (Nat × α))) (t : Sharing (Nat × α)) (S : List (Nat × α)),
      Legal shareStep (shLegal env) t ops → (∀ op ∈ ops, ∀ k, ∀ p ∈ sentTo k op, p.1 = k) →
      P t S (constructions h ops) →
      P (runSpec shareStep t ops).1 (S ++ (ops.map (sentTo h)).flatten) 0 := by
    intro ops
    induction ops with
    | nil =>
      intro t S _ _ hP
      simpa [runSpec, constructions] using hP
    | cons op ops ih =>
      intro t S hl htag hP
      obtain ⟨l1, l2⟩ := hl
      have htag' : ∀ o ∈ ops, ∀ k, ∀ p ∈ sentTo k o, p.1 = k := fun o ho => htag o (by simp [ho])
      simp only [runSpec, List.map_cons, List.flatten_cons]
      rw [← List.append_assoc]
      apply ih _ _ l2 htag'
      cases op with
      | construct k nk =>
        obtain ⟨hp, hP⟩ := hP
        have look : ∀ h', ((k, nk) :: t.live).lookup h' = if h' = k then some nk else t.live.lookup h' := by
          intro h'
          rw [List.lookup_cons]
          by_cases hh : h' = k
          · subst hh; simp
          · have : (h' == k) = false := by simpa using hh
            rw [this, if_neg hh]
        refine ⟨?_, ?_⟩
        · intro k' p hp'
          simp only [shareStep, setAt] at hp'
          split at hp'
          · simp at hp'
          · exact hp k' p hp'
        · simp only [shareStep, Sharing.nameOf, look, sentTo, List.append_nil]
          by_cases hkh : h = k
          · subst hkh
            have hc : constructions h (Op.construct h nk :: ops) = constructions h ops + 1 := by
              simp [constructions]
            rw [hc] at hP
            rcases hP with ⟨a1, a2, a3, a4⟩ | ⟨a1, _⟩ | ⟨a1, _⟩
            · right; left
              refine ⟨by omega, nk, by simp, ?_, by simp [setAt]⟩
              simp [setAt, a4, a3]
            · omega
            · omega
          · have hc : constructions h (Op.construct k nk :: ops) = constructions h ops := by
              have : ¬ k = h := fun e => hkh e.symm
              simp [constructions, this]
            rw [hc] at hP
            rw [if_neg hkh]
            rcases hP with ⟨a1, a2, a3, a4⟩ | ⟨a1, n0, a2, a3, a4⟩ | ⟨a1, a2⟩
            · exact .inl ⟨a1, a2, a3, a4⟩
            · exact .inr (.inl ⟨a1, n0, a2, by simpa [setAt, hkh] using a3, by simpa [setAt, hkh] using a4⟩)
            · exact .inr (.inr ⟨a1, a2⟩)
      | default k => exact absurd l1 id
      | openFile k nk => exact absurd l1 id
      | put k b =>
        obtain ⟨nk, hk⟩ := Option.isSome_iff_exists.1 l1
        have hb : ∀ p ∈ [b], p.1 = k := fun p hp => htag (.put k b) (by simp) k p (by simpa [sentTo] using hp)
        have := hsend t S (constructions h ops) k nk [b] hP hk hb
        simpa [shareStep, hk, sentTo] using this
      | write k bs =>
        obtain ⟨nk, hk⟩ := Option.isSome_iff_exists.1 l1.1
        have hb : ∀ p ∈ bs, p.1 = k := fun p hp => htag (.write k bs) (by simp) k p (by simpa [sentTo] using hp)
        have := hsend t S (constructions h ops) k nk bs hP hk hb
        simpa [shareStep, hk, sentTo] using this
      | flush k =>
        obtain ⟨nk, hk⟩ := Option.isSome_iff_exists.1 l1.1
        have hP' : P t S (constructions h ops) := hP
        obtain ⟨hp, hP'⟩ := hP'
        simp only [shareStep, hk, sentTo, List.append_nil]
        refine ⟨?_, ?_⟩
        · intro k' p hp'
          simp only [setAt] at hp'
          split at hp'
          · simp at hp'
          · exact hp k' p hp'
        · rcases hP' with ⟨a1, a2, a3, a4⟩ | ⟨a1, n0, a2, a3, a4⟩ | ⟨a1, a2⟩
          · left
            have hkh : k ≠ h := by rintro rfl; rw [a2] at hk; cases hk
            refine ⟨a1, a2, a3, ?_⟩
            intro j
            simp only [setAt]
            split
            · rename_i e; subst e
              rw [List.filter_append, a4, filt k _ (hp k), if_neg hkh]; rfl
            · exact a4 j
          · right; left
            refine ⟨a1, n0, a2, ?_, ?_⟩
            · by_cases hkh : k = h
              · subst hkh
                rw [hk] at a2; cases a2
                simp only [setAt, if_true]
                rw [List.filter_append, filt k _ (hp k), if_pos rfl, List.append_nil]
                exact a3
              · have hhk : ¬ h = k := fun e => hkh e.symm
                simp only [setAt, if_neg hhk]
                split
                · rename_i e; subst e
                  rw [List.filter_append, filt k _ (hp k), if_neg hkh, List.append_nil]; exact a3
                · exact a3
            · simp only [setAt]
              split
              · simp
              · exact a4
          · exact .inr (.inr ⟨a1, a2⟩)
      | count k =>
        obtain ⟨nk, hk⟩ := Option.isSome_iff_exists.1 l1
        have hP' : P t S (constructions h ops) := hP
        simpa [shareStep, hk, sentTo] using hP'
      | destroy k =>
        obtain ⟨nk, hk⟩ := Option.isSome_iff_exists.1 l1
        have hP' : P t S (constructions h ops) := hP
        obtain ⟨hp, hP'⟩ := hP'
        simp only [shareStep, hk, sentTo, List.append_nil]
        refine ⟨hp, ?_⟩
        simp only [Sharing.nameOf, Shared.lookup_filter]
        rcases hP' with ⟨a1, a2, a3, a4⟩ | ⟨a1, n0, a2, a3, a4⟩ | ⟨a1, a2⟩
        · refine .inl ⟨a1, ?_, a3, a4⟩
          split
          · rfl
          · exact a2
        · by_cases hkh : h = k
          · exact .inr (.inr ⟨a1, by simp [hkh]⟩)
          · exact .inr (.inl ⟨a1, n0, by rw [if_neg hkh]; exact a2, a3, a4⟩)
        · refine .inr (.inr ⟨a1, ?_⟩)
          split
          · rfl
          · exact a2
  have fin := key ops Sharing.init [] hl htag
    ⟨by simp [Sharing.init], .inl ⟨honce, rfl, rfl, by simp [Sharing.init]⟩⟩
  rw [List.nil_append] at fin
  obtain ⟨_, fin⟩ := fin
  rcases fin with ⟨_, a2, _⟩ | ⟨_, n0, a2, a3, a4⟩ | ⟨_, a2⟩
  · rw [a2] at halive; cases halive
  · rw [a2] at halive; cases halive
    refine ⟨w, (runSpec shareStep Sharing.init ops).1.pend h, by rw [h1]; rfl, ?_, a4, ?_⟩
    · rw [h3]; exact a3
    · intro hlast
      obtain ⟨pre, rfl⟩ := List.getLast?_eq_some_iff.1 hlast
      have app : ∀ (l : List (Op (Nat × α))) (t : Sharing (Nat × α)) (o : Op (Nat × α)),
          (runSpec shareStep t (l ++ [o])).1 = (shareStep (runSpec shareStep t l).1 o).1 := by
        intro l
        induction l with
        | nil => intro t o; rfl
        | cons x l ih => intro t o; simp only [List.cons_append, runSpec]; exact ih _ _
      rw [app] at a2 ⊢
      cases hx : (runSpec shareStep (Sharing.init : Sharing (Nat × α)) pre).1.nameOf h with
      | some k => simp [shareStep, hx, setAt]
      | none => simp [shareStep, hx] at a2
  · rw [a2] at halive; cases halive

-- non-vacuity: handles 1 and 2 on file 7, bytes tagged with the handle
example : Legal shareStep (shLegal env0) (Sharing.init : Sharing (Nat × Char))
    [.construct 1 7, .construct 2 7, .write 1 [(1, 'a')], .put 2 (2, 'b'), .flush 2, .flush 1] ∧
    (runSpec shareStep (Sharing.init : Sharing (Nat × Char)) [.construct 1 7, .construct 2 7,
      .write 1 [(1, 'a')], .put 2 (2, 'b'), .flush 2, .flush 1]).1.nameOf 1 = some 7 := by
  simp [Legal, shLegal, shareStep, Sharing.init, Sharing.nameOf, Sharing.take, env0, setAt, List.lookup,
    leftover, runSpec]

/-- **C26, refuted**: bytes still in the handle's buffer when it is destroyed are lost: the file is closed
without them, in both build modes. -/
theorem C26_fails_destruction (m : Mode) (env : Env) (n : Nat) (b : α) (ho : env.canOpen n = true) :
    ∃ w, runOps (Shared.step m env) (World.init : World α) [.construct 0 n, .put 0 b, .destroy 0] =
      some (w, [.ok .unit, .ok (.num 1), .ok .unit]) ∧ w.file n = [] ∧ w.log = [.opened n, .closed n] := by
  simp [runOps, Shared.step, World.init, Shared.openInst, Shared.register, Shared.lock, ho, Shared.upd,
    Shared.put, Buf.append1, Buf.full, Shared.cap, Shared.destroy, Shared.deregister, Shared.free,
    Shared.R.toRes]

/-! ## C71 -/

/-- **C71, partial**: what the disk holds after a file is opened, written (non-empty writes that the device
accepts) and closed.  In mode `Append` it is the old contents followed by the bytes written.  In mode `New`
it is exactly the bytes written *provided the old contents were not longer*. -/
theorem C71_contents_partial (m : Mode) (old : List α) (ws : List (List α)) (hne : [] ∉ ws) (mode : WMode)
    (hn : mode = .new → old.length ≤ ws.flatten.length) :
    ∃ f, OFile.writes m ((⟨old, none, .noError⟩ : OFile α).openFile mode) ws = .ok f ∧
      f.close.disk = (match mode with | .new => ws.flatten | .append => old ++ ws.flatten) := by
  have key : ∀ (ws : List (List α)) (disk : List α) (pos : Nat), [] ∉ ws → pos ≤ disk.length →
      ∃ f, OFile.writes m (⟨disk, some (mode, pos), .noError⟩ : OFile α) ws = .ok f ∧
        f.disk = (match mode with
          | .new => disk.take pos ++ ws.flatten ++ disk.drop (pos + ws.flatten.length)
          | .append => disk ++ ws.flatten) := by
    intro ws
    induction ws with
    | nil => intro disk pos _ _; refine ⟨_, rfl, ?_⟩; cases mode <;> simp
    | cons w ws ih =>
      intro disk pos hw hp
      simp only [List.mem_cons, not_or] at hw
      have hw' : w ≠ [] := fun e => hw.1 e.symm
      cases mode with
      | new =>
        obtain ⟨f, h1, h2⟩ := ih (OFile.overwrite disk pos w) (pos + w.length) hw.2
          (by simp [OFile.overwrite]; omega)
        refine ⟨f, ?_, ?_⟩
        · simp [OFile.writes, OFile.write, hw', OFile.emit, h1]
        · rw [h2]
          simp only [OFile.overwrite, List.flatten_cons]
          have e1 : (disk.take pos).length = pos := by simp; omega
          have e2 : (disk.take pos ++ w).length = pos + w.length := by simp; omega
          rw [List.take_append_of_le_length (by omega), List.take_of_length_le (by omega),
            List.drop_append, List.drop_eq_nil_of_le (by omega), List.drop_drop]
          simp only [List.nil_append, List.append_assoc, List.length_append]
          congr 4
          simp only [List.length_take]; omega
      | append =>
        obtain ⟨f, h1, h2⟩ := ih (disk ++ w) (pos + w.length) hw.2 (by simp; omega)
        refine ⟨f, ?_, ?_⟩
        · simp [OFile.writes, OFile.write, hw', OFile.emit, h1]
        · rw [h2]; simp
  obtain ⟨f, h1, h2⟩ := key ws old 0 hne (by omega)
  refine ⟨f, h1, ?_⟩
  simp only [OFile.close, h2]
  cases mode with
  | new => simp only [List.take_zero, List.nil_append, Nat.zero_add]
           rw [List.drop_eq_nil_of_le (hn rfl), List.append_nil]
  | append => rfl

/-- **C71, refuted**: opening in mode `New` ("deletes existing objects") keeps the tail of a longer
existing file: whatever is written, bytes of the old file beyond it remain. -/
theorem C71_fails_new (m : Mode) (old bs : List α) (h : bs.length < old.length) (hb : bs ≠ []) :
    ∃ f, OFile.writes m ((⟨old, none, .noError⟩ : OFile α).openFile .new) [bs] = .ok f ∧
      f.close.disk = bs ++ old.drop bs.length ∧ f.close.disk ≠ bs := by
  refine ⟨_, by simp [OFile.writes, OFile.write, OFile.openFile, hb, OFile.emit]; rfl, ?_⟩
  have : OFile.overwrite old 0 bs = bs ++ old.drop bs.length := by simp [OFile.overwrite]
  refine ⟨by simp [OFile.close, this], ?_⟩
  simp only [OFile.close, this]
  intro e
  have := congrArg List.length e
  simp at this; omega

/-- **C71, refuted**: writing no bytes is reported as a write error. -/
theorem C71_fails_empty_write (old : List α) (mode : WMode) :
    OFile.write .debug ((⟨old, none, .noError⟩ : OFile α).openFile mode) [] true =
        .throw (⟨old, some (mode, 0), .noError⟩) .writeError ∧
      OFile.write .release ((⟨old, none, .noError⟩ : OFile α).openFile mode) [] true =
        .ok (⟨old, some (mode, 0), .writeError⟩) (-1) := by
  constructor <;> simp [OFile.write, OFile.openFile]

example : OFile.writes .debug ((⟨['x', 'y', 'z'], none, .noError⟩ : OFile Char).openFile .new)
    [['a'], ['b']] = .ok ⟨['a', 'b', 'z'], some (.new, 2), .noError⟩ := by decide

end Ecl.Props
