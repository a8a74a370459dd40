import Verif.Spec.SharedFiles
import Mathlib.Data.List.Lookmap
import Mathlib.Data.List.Nodup

/-! # Helper lemmas for `SharedFile` -/
set_option autoImplicit false
set_option linter.unusedSimpArgs false

namespace Ecl.Shared
open Ecl.Spec
variable {α : Type _}

theorem upd_eq_set {β : Type _} (f : Nat → β) (i : Nat) (v : β) : upd f i v = setAt f i v := rfl

theorem upd_self {β : Type _} (f : Nat → β) (i : Nat) (v : β) (h : f i = v) : upd f i v = f := by
  funext j; unfold upd; split
  · rename_i e; rw [e, h]
  · rfl

theorem upd_upd {β : Type _} (f : Nat → β) (i : Nat) (v v' : β) : upd (upd f i v) i v' = upd f i v' := by
  funext j; unfold upd; split <;> rfl

@[simp] theorem upd_at {β : Type _} (f : Nat → β) (i : Nat) (v : β) : upd f i v i = v := by simp [upd]

theorem upd_ne {β : Type _} (f : Nat → β) {i j : Nat} (v : β) (h : j ≠ i) : upd f i v j = f j := by
  simp [upd, h]

theorem blocks_small {l : List α} (h : l.length < 4096) : blocks l = [] := by
  unfold blocks; rw [Nat.div_eq_of_lt h]; simp

theorem leftover_small {l : List α} (h : l.length < 4096) : leftover l = l := by
  unfold leftover; rw [Nat.div_eq_of_lt h]; simp

theorem blocks_append {a : List α} (b : List α) (h : a.length = 4096) :
    blocks (a ++ b) = a ++ blocks b := by
  unfold blocks
  rw [List.length_append, h]
  have : (4096 + b.length) / 4096 * 4096 = 4096 + b.length / 4096 * 4096 := by omega
  rw [this, ← h, List.take_length_add_append]

theorem leftover_append {a : List α} (b : List α) (h : a.length = 4096) :
    leftover (a ++ b) = leftover b := by
  unfold leftover
  rw [List.length_append, h]
  have : (4096 + b.length) / 4096 * 4096 = 4096 + b.length / 4096 * 4096 := by omega
  rw [this, ← h, List.drop_length_add_append]

theorem leftover_length (l : List α) : (leftover l).length < 4096 := by
  unfold leftover; rw [List.length_drop]; omega

theorem blocks_leftover (l : List α) : blocks l ++ leftover l = l := List.take_append_drop _ _

/-- A flush of pending bytes to a file that accepts them. -/
theorem flush_ok (m : Mode) (env : Env) (w : World α) (h id n : Nat) (cnt : Option Nat) (buf : List α)
    (hc : w.heap id = some ⟨cnt, some n, .noError, .noError⟩) (hw : env.canWrite n = true)
    (hb : buf ≠ []) :
    flush m env w h ⟨some id, buf⟩ = .ok { w with
      file := upd w.file n (w.file n ++ buf),
      handles := upd w.handles h (some ⟨some id, []⟩) } true := by
  unfold flush
  simp only [hc]
  rw [if_pos ⟨hw, hb⟩, upd_self _ _ _ hc]

theorem loop_ok (m : Mode) (env : Env) (N : Int) (h id n : Nat) (cnt : Option Nat)
    (hw : env.canWrite n = true) :
    ∀ (f : Nat) (w : World α) (buf bs : List α),
      w.heap id = some ⟨cnt, some n, .noError, .noError⟩ →
      w.handles h = some ⟨some id, buf⟩ → buf.length < 4096 → bs.length < f →
      loop m env N h f w bs = .ok { w with
        file := upd w.file n (w.file n ++ blocks (buf ++ bs)),
        handles := upd w.handles h (some ⟨some id, leftover (buf ++ bs)⟩) } N := by
  intro f
  induction f with
  | zero => intro w buf bs _ _ _ h; omega
  | succ f ih =>
    intro w buf bs hc hh hb hf
    have loop_nil : ∀ w' : World α, loop m env N h f w' [] = .ok w' N := by
      intro w'; cases f <;> rfl
    cases bs with
    | nil =>
      simp only [List.append_nil, blocks_small hb, leftover_small hb]
      rw [upd_self _ _ _ rfl, upd_self _ _ _ hh]
      rfl
    | cons b bs =>
      unfold loop
      simp only [hh, Buf.append]
      rw [if_neg (by simp only [cap]; omega)]
      by_cases hfit : (b :: bs).length ≤ cap - buf.length
      · rw [if_pos hfit]
        simp only [List.drop_length]
        by_cases hfull : Buf.full cap (buf ++ b :: bs) = true
        · have hlen : (buf ++ b :: bs).length = 4096 := by simpa [Buf.full, cap] using hfull
          rw [if_pos hfull, flush_ok m env { w with handles := upd w.handles h (some ⟨some id, buf ++ b :: bs⟩) }
            h id n cnt (buf ++ b :: bs) hc hw (by simp)]
          simp only [loop_nil]
          rw [show buf ++ b :: bs = (buf ++ b :: bs) ++ [] by simp, blocks_append [] hlen,
            leftover_append [] hlen, upd_upd, blocks_small (by simp), leftover_small (by simp)]
        · have hlen : (buf ++ b :: bs).length < 4096 := by
            have : ¬ (buf ++ b :: bs).length = 4096 := by simpa [Buf.full, cap] using hfull
            simp only [List.length_append, cap] at *; omega
          rw [if_neg hfull]
          simp only [loop_nil]
          rw [blocks_small hlen, leftover_small hlen, List.append_nil, upd_self w.file n _ rfl]
      · rw [if_neg hfit]
        generalize hK : cap - buf.length = K at hfit
        have hKpos : 0 < K := by simp only [cap] at hK; omega
        have hlen : (buf ++ (b :: bs).take K).length = 4096 := by
          simp only [List.length_append, List.length_take, cap] at *; omega
        have hfull : Buf.full cap (buf ++ (b :: bs).take K) = true := by
          simp only [Buf.full, beq_iff_eq, cap]; exact hlen
        simp only [hfull, if_true]
        rw [flush_ok m env
          { w with handles := upd w.handles h (some ⟨some id, buf ++ (b :: bs).take K⟩) }
          h id n cnt (buf ++ (b :: bs).take K) hc hw (by
          intro h0; rw [h0] at hlen; simp at hlen)]
        simp only
        refine Eq.trans (ih _ [] ((b :: bs).drop K) ?_ ?_ ?_ ?_) ?_
        · exact hc
        · simp
        · simp
        · simp only [List.length_drop]; omega
        have hsplit : buf ++ b :: bs = (buf ++ (b :: bs).take K) ++ (b :: bs).drop K := by
          rw [List.append_assoc, List.take_append_drop]
        rw [hsplit, blocks_append _ hlen, leftover_append _ hlen]
        simp only [upd_upd, upd_at, List.nil_append, List.append_assoc]

/-- Simulation relation between the process and the specification. -/
structure Rel (w : World α) (t : Sharing α) : Prop where
  hung : w.hung = false
  locked : w.locked = false
  nodup : (t.live.map Prod.fst).Nodup
  dead : ∀ h, t.nameOf h = none → w.handles h = none
  alive : ∀ h n, t.nameOf h = some n → ∃ id, w.map n = some id ∧
    w.handles h = some ⟨some id, t.pend h⟩ ∧ (t.pend h).length < 4096
  named : ∀ n, n ∈ t.live.map Prod.snd → ∃ id, w.map n = some id ∧ id < w.next ∧
    w.heap id = some ⟨some (t.live.countP fun p => p.2 = n), some n, .noError, .noError⟩
  unnamed : ∀ n, n ∉ t.live.map Prod.snd → w.map n = none
  file : w.file = t.file
  log : w.log = t.log

theorem Rel.init : Rel (World.init : World α) Sharing.init :=
  ⟨rfl, rfl, by simp [Sharing.init], by simp [World.init], by simp [Sharing.init, Sharing.nameOf],
    by simp [Sharing.init], by simp [World.init], rfl, rfl⟩

theorem mem_of_nameOf {t : Sharing α} {h n : Nat} (e : t.nameOf h = some n) :
    (h, n) ∈ t.live := by
  have : ∀ l : List (Nat × Nat), l.lookup h = some n → (h, n) ∈ l := by
    intro l
    induction l with
    | nil => simp
    | cons p l ih =>
      obtain ⟨a, b⟩ := p
      rw [List.lookup_cons]
      by_cases hab : h = a
      · subst hab; simp; rintro rfl; exact .inl rfl
      · have : (h == a) = false := by simpa using hab
        rw [this]; intro h'; exact List.mem_cons_of_mem _ (ih h')
  exact this _ e

/-- Bytes taken by a living handle. -/
theorem Rel.take {w : World α} {t : Sharing α} (hR : Rel w t) (h n : Nat) (bs : List α)
    (hn : t.nameOf h = some n) (id : Nat) (f : Nat → List α) (hs : Nat → Option (Handle α))
    (hf : f = upd w.file n (w.file n ++ blocks (t.pend h ++ bs)))
    (hhs : hs = upd w.handles h (some ⟨some id, leftover (t.pend h ++ bs)⟩))
    (hm : w.map n = some id) :
    Rel { w with file := f, handles := hs } (t.take h n bs) := by
  refine ⟨hR.hung, hR.locked, hR.nodup, ?_, ?_, hR.named, hR.unnamed, ?_, hR.log⟩
  · intro h' e
    have e' : t.nameOf h' = none := e
    have : h' ≠ h := by rintro rfl; rw [hn] at e'; cases e'
    simp only [hhs, upd_ne _ _ this]; exact hR.dead h' e'
  · intro h' n' e
    have e' : t.nameOf h' = some n' := e
    by_cases hh : h' = h
    · subst hh
      rw [hn] at e'; cases e'
      exact ⟨id, hm, by simp [hhs, Sharing.take, setAt], by simp [Sharing.take, setAt, leftover_length]⟩
    · obtain ⟨i, a1, a2, a3⟩ := hR.alive h' n' e'
      exact ⟨i, a1, by simp [hhs, upd_ne _ _ hh, Sharing.take, setAt, hh, a2],
        by simpa [Sharing.take, setAt, hh] using a3⟩
  · simp only [hf, hR.file, Sharing.take]; rfl

theorem lookup_filter (l : List (Nat × Nat)) (h h' : Nat) :
    (l.filter fun p => p.1 ≠ h).lookup h' = if h' = h then none else l.lookup h' := by
  induction l with
  | nil => simp
  | cons p l ih =>
    obtain ⟨a, b⟩ := p
    by_cases ha : a = h
    · subst ha
      rw [List.filter_cons_of_neg (by simp), ih]
      by_cases hh : h' = a
      · simp [hh]
      · have : (h' == a) = false := by simpa using hh
        rw [if_neg hh, if_neg hh, List.lookup_cons, this]
    · rw [List.filter_cons_of_pos (by simpa using ha), List.lookup_cons, List.lookup_cons, ih]
      by_cases hh : h' = a
      · subst hh; simp [ha]
      · have : (h' == a) = false := by simpa using hh
        rw [this]

theorem filter_absent (l : List (Nat × Nat)) (h : Nat) (hn : h ∉ l.map Prod.fst) :
    (l.filter fun p => p.1 ≠ h) = l := by
  rw [List.filter_eq_self]
  intro p hp
  simp only [ne_eq, decide_eq_true_eq]
  rintro rfl
  exact hn (List.mem_map_of_mem hp)

theorem count_filter (l : List (Nat × Nat)) (h n k : Nat) (hnd : (l.map Prod.fst).Nodup)
    (hm : (h, n) ∈ l) :
    (l.filter fun p => p.1 ≠ h).countP (fun p => p.2 = k) + (if k = n then 1 else 0) =
      l.countP (fun p => p.2 = k) := by
  induction l with
  | nil => simp at hm
  | cons p l ih =>
    obtain ⟨a, b⟩ := p
    simp only [List.map_cons, List.nodup_cons] at hnd
    by_cases ha : a = h
    · subst ha
      have hb : b = n := by
        rcases List.mem_cons.1 hm with h | h
        · simpa using h.symm
        · exact absurd (List.mem_map_of_mem (f := Prod.fst) h) hnd.1
      subst hb
      rw [List.filter_cons_of_neg (by simp), filter_absent l a hnd.1, List.countP_cons]
      by_cases hk : k = b
      · subst hk; simp
      · have : ¬ b = k := fun e => hk e.symm
        simp [hk, this]
    · rw [List.filter_cons_of_pos (by simpa using ha), List.countP_cons, List.countP_cons]
      have hm' : (h, n) ∈ l := by
        rcases List.mem_cons.1 hm with h' | h'
        · simp at h'; exact absurd h'.1.symm ha
        · exact h'
      have := ih hnd.2 hm'
      omega

theorem mem_names (l : List (Nat × Nat)) (n : Nat) :
    n ∈ l.map Prod.snd ↔ 0 < l.countP (fun p => p.2 = n) := by
  rw [List.countP_pos_iff]
  simp

theorem lookup_none (l : List (Nat × Nat)) (h : Nat) (e : l.lookup h = none) : h ∉ l.map Prod.fst := by
  induction l with
  | nil => simp
  | cons p l ih =>
    obtain ⟨a, b⟩ := p
    rw [List.lookup_cons] at e
    by_cases hab : h = a
    · subst hab; simp at e
    · have : (h == a) = false := by simpa using hab
      rw [this] at e
      simp only [List.map_cons, List.mem_cons, not_or]
      exact ⟨hab, ih e⟩

/-- Different names in use have different `SharedFileCommon` objects. -/
theorem Rel.ids_ne {w : World α} {t : Sharing α} (hR : Rel w t) {n n' id id' : Nat}
    (hn : n ∈ t.live.map Prod.snd) (hn' : n' ∈ t.live.map Prod.snd) (hne : n ≠ n')
    (h : w.map n = some id) (h' : w.map n' = some id') : id ≠ id' := by
  rintro rfl
  obtain ⟨i, a1, _, a2⟩ := hR.named n hn
  obtain ⟨j, b1, _, b2⟩ := hR.named n' hn'
  rw [h] at a1; rw [h'] at b1
  cases a1; cases b1
  rw [a2] at b2
  simp at b2
  exact hne b2.2

theorem Rel.construct {w : World α} {t : Sharing α} (hR : Rel w t) (m : Mode) (env : Env) (h n : Nat)
    (hf : t.nameOf h = none) (ho : env.canOpen n = true) :
    ∃ w', step m env w (.construct h n) = .ok w' .unit ∧ Rel w' (shareStep t (.construct h n)).1 := by
  have hdead := hR.dead h hf
  have hkey : h ∉ t.live.map Prod.fst := lookup_none _ _ hf
  have look : ∀ h', ((h, n) :: t.live).lookup h' = if h' = h then some n else t.live.lookup h' := by
    intro h'
    rw [List.lookup_cons]
    by_cases hh : h' = h
    · subst hh; simp
    · have : (h' == h) = false := by simpa using hh
      rw [this, if_neg hh]
  by_cases hn : n ∈ t.live.map Prod.snd
  · obtain ⟨id, a1, a2, a3⟩ := hR.named n hn
    refine ⟨{ w with
      heap := upd w.heap id (some ⟨some (t.live.countP (fun p => p.2 = n) + 1), some n, .noError, .noError⟩),
      handles := upd w.handles h (some ⟨some id, []⟩), locked := false }, ?_, ?_⟩
    · simp [step, hR.hung, hdead, openInst, register, lock, hR.locked, a1, a3, upd_upd]
    · refine ⟨hR.hung, rfl, ?_, ?_, ?_, ?_, ?_, hR.file, ?_⟩
      · simp only [shareStep, List.map_cons, List.nodup_cons]; exact ⟨hkey, hR.nodup⟩
      · intro h' e
        simp only [shareStep, Sharing.nameOf, look] at e
        split at e
        · cases e
        · rename_i hh; simp only [upd_ne _ _ hh]; exact hR.dead h' e
      · intro h' n' e
        simp only [shareStep, Sharing.nameOf, look] at e
        split at e
        · rename_i hh; subst hh; cases e
          exact ⟨id, a1, by simp [shareStep, setAt], by simp [shareStep, setAt]⟩
        · rename_i hh
          obtain ⟨i, b1, b2, b3⟩ := hR.alive h' n' e
          exact ⟨i, b1, by simp [upd_ne _ _ hh, shareStep, setAt, hh, b2],
            by simpa [shareStep, setAt, hh] using b3⟩
      · intro n' hn'
        by_cases hnn : n' = n
        · subst hnn
          exact ⟨id, a1, a2, by simp [shareStep]⟩
        · have hn'' : n' ∈ t.live.map Prod.snd := by
            simp only [shareStep, List.map_cons, List.mem_cons] at hn'
            exact hn'.resolve_left hnn
          obtain ⟨i, b1, b2, b3⟩ := hR.named n' hn''
          have hne : i ≠ id := hR.ids_ne hn'' hn hnn b1 a1
          have hnn' : ¬ n = n' := fun e => hnn e.symm
          exact ⟨i, b1, b2, by simp [upd_ne _ _ hne, shareStep, b3, hnn']⟩
      · intro n' hn'
        simp only [shareStep, List.map_cons, List.mem_cons, not_or] at hn'
        exact hR.unnamed n' hn'.2
      · simp only [shareStep, if_pos hn]; exact hR.log
  · have a1 := hR.unnamed n hn
    refine ⟨{ w with
      heap := upd w.heap w.next (some ⟨some 1, some n, .noError, .noError⟩),
      next := w.next + 1, map := upd w.map n (some w.next), log := w.log ++ [.opened n],
      handles := upd w.handles h (some ⟨some w.next, []⟩), locked := false }, ?_, ?_⟩
    · simp [step, hR.hung, hdead, openInst, register, lock, hR.locked, a1, ho, upd_upd]
    · refine ⟨hR.hung, rfl, ?_, ?_, ?_, ?_, ?_, hR.file, ?_⟩
      · simp only [shareStep, List.map_cons, List.nodup_cons]; exact ⟨hkey, hR.nodup⟩
      · intro h' e
        simp only [shareStep, Sharing.nameOf, look] at e
        split at e
        · cases e
        · rename_i hh; simp only [upd_ne _ _ hh]; exact hR.dead h' e
      · intro h' n' e
        simp only [shareStep, Sharing.nameOf, look] at e
        split at e
        · rename_i hh; subst hh; cases e
          exact ⟨w.next, by simp, by simp [shareStep, setAt], by simp [shareStep, setAt]⟩
        · rename_i hh
          obtain ⟨i, b1, b2, b3⟩ := hR.alive h' n' e
          have hnn : n' ≠ n := by
            rintro rfl
            rw [a1] at b1; cases b1
          exact ⟨i, by simp [upd_ne _ _ hnn, b1], by simp [upd_ne _ _ hh, shareStep, setAt, hh, b2],
            by simpa [shareStep, setAt, hh] using b3⟩
      · intro n' hn'
        by_cases hnn : n' = n
        · subst hnn
          have h0 : t.live.countP (fun p => p.2 = n') = 0 := by
            have := (mem_names t.live n').not.1 hn; omega
          refine ⟨w.next, by simp, by simp, ?_⟩
          simp only [upd_at, shareStep, List.countP_cons, h0]
          simp
        · have hn'' : n' ∈ t.live.map Prod.snd := by
            simp only [shareStep, List.map_cons, List.mem_cons] at hn'
            exact hn'.resolve_left hnn
          obtain ⟨i, b1, b2, b3⟩ := hR.named n' hn''
          have hne : i ≠ w.next := by omega
          have hnn' : ¬ n = n' := fun e => hnn e.symm
          exact ⟨i, by simp [upd_ne _ _ hnn, b1], by simp; omega, by simp [upd_ne _ _ hne, shareStep, b3, hnn']⟩
      · intro n' hn'
        simp only [shareStep, List.map_cons, List.mem_cons, not_or] at hn'
        simp only [upd_ne _ _ hn'.1]
        exact hR.unnamed n' hn'.2
      · simp only [shareStep, if_neg hn]; rw [hR.log]

theorem Rel.destroy {w : World α} {t : Sharing α} (hR : Rel w t) (m : Mode) (env : Env) (h n : Nat)
    (hn : t.nameOf h = some n) :
    ∃ w', step m env w (.destroy h) = .ok w' .unit ∧ Rel w' (shareStep t (.destroy h)).1 := by
  have hmem := mem_of_nameOf hn
  have hnm : n ∈ t.live.map Prod.snd := List.mem_map_of_mem (f := Prod.snd) hmem
  obtain ⟨id, a1, a2, a3⟩ := hR.named n hnm
  obtain ⟨id', b1, b2, b3⟩ := hR.alive h n hn
  rw [a1] at b1; cases b1
  have hcnt := count_filter t.live h n n hR.nodup hmem
  simp only [if_true] at hcnt
  have hcnt' : ∀ k, k ≠ n → (t.live.filter fun p => p.1 ≠ h).countP (fun p => p.2 = k) =
      t.live.countP (fun p => p.2 = k) := by
    intro k hk
    have := count_filter t.live h n k hR.nodup hmem
    simpa [hk] using this
  have hnd : ((t.live.filter fun p => p.1 ≠ h).map Prod.fst).Nodup :=
    hR.nodup.sublist (List.filter_sublist.map _)
  have dead : ∀ (hs : Nat → Option (Handle α)) (h' : Nat), hs = upd w.handles h none →
      (t.live.filter fun p => p.1 ≠ h).lookup h' = none → hs h' = none := by
    intro hs h' e1 e2
    rw [lookup_filter] at e2
    rw [e1]
    by_cases hh : h' = h
    · subst hh; simp
    · rw [if_neg hh] at e2
      rw [upd_ne _ _ hh]; exact hR.dead h' e2
  have names : ∀ k, k ≠ n → (k ∈ (t.live.filter fun p => p.1 ≠ h).map Prod.snd ↔
      k ∈ t.live.map Prod.snd) := by
    intro k hk; rw [mem_names, mem_names, hcnt' k hk]
  by_cases hlast : t.live.countP (fun p => p.2 = n) = 1
  · have hgone : n ∉ (t.live.filter fun p => p.1 ≠ h).map Prod.snd := by
      rw [mem_names]; omega
    refine ⟨{ w with
      heap := upd w.heap id none, map := upd w.map n none, log := w.log ++ [.closed n],
      handles := upd w.handles h none, locked := false }, ?_, ?_⟩
    · simp [step, hR.hung, b2, Shared.destroy, a3, deregister, lock, hR.locked, a1, hlast, free, R.toRes]
    · simp only [shareStep, hn]
      refine ⟨hR.hung, rfl, hnd, fun h' e => dead _ h' rfl e, ?_, ?_, ?_, hR.file, ?_⟩
      · intro h' n' e
        simp only [Sharing.nameOf, lookup_filter] at e
        split at e
        · cases e
        · rename_i hh
          obtain ⟨i, c1, c2, c3⟩ := hR.alive h' n' e
          have hnn : n' ≠ n := by
            rintro rfl
            have : n' ∈ (t.live.filter fun p => p.1 ≠ h).map Prod.snd := by
              have hm2 := mem_of_nameOf (t := t) e
              exact List.mem_map.2 ⟨(h', n'), List.mem_filter.2 ⟨hm2, by simpa using hh⟩, rfl⟩
            exact hgone this
          exact ⟨i, by simp [upd_ne _ _ hnn, c1], by simp [upd_ne _ _ hh, c2], c3⟩
      · intro n' hn'
        have hnn : n' ≠ n := by rintro rfl; exact hgone hn'
        have hn'' := (names n' hnn).1 hn'
        obtain ⟨i, c1, c2, c3⟩ := hR.named n' hn''
        have hne : i ≠ id := hR.ids_ne hn'' hnm hnn c1 a1
        refine ⟨i, by simp [upd_ne _ _ hnn, c1], c2, ?_⟩
        have := hcnt' n' hnn
        simp only [upd_ne _ _ hne, c3, this]
      · intro n' hn'
        by_cases hnn : n' = n
        · subst hnn; simp
        · simp only [upd_ne _ _ hnn]
          exact hR.unnamed n' fun hx => hn' ((names n' hnn).2 hx)
      · simp only [if_neg hgone]; rw [hR.log]
  · have hpos : 0 < t.live.countP (fun p => p.2 = n) := (mem_names _ _).1 hnm
    have hstay : n ∈ (t.live.filter fun p => p.1 ≠ h).map Prod.snd := by
      rw [mem_names]; omega
    refine ⟨{ w with
      heap := upd w.heap id (some ⟨some (t.live.countP (fun p => p.2 = n) - 1), some n, .noError, .noError⟩),
      handles := upd w.handles h none, locked := false }, ?_, ?_⟩
    · simp [step, hR.hung, b2, Shared.destroy, a3, deregister, lock, hR.locked, a1, hlast, free, R.toRes]
    · simp only [shareStep, hn]
      refine ⟨hR.hung, rfl, hnd, fun h' e => dead _ h' rfl e, ?_, ?_, ?_, hR.file, ?_⟩
      · intro h' n' e
        simp only [Sharing.nameOf, lookup_filter] at e
        split at e
        · cases e
        · rename_i hh
          obtain ⟨i, c1, c2, c3⟩ := hR.alive h' n' e
          exact ⟨i, c1, by simp [upd_ne _ _ hh, c2], c3⟩
      · intro n' hn'
        by_cases hnn : n' = n
        · subst hnn
          refine ⟨id, a1, a2, ?_⟩
          simp only [upd_at]
          congr 3
          omega
        · have hn'' := (names n' hnn).1 hn'
          obtain ⟨i, c1, c2, c3⟩ := hR.named n' hn''
          have hne : i ≠ id := hR.ids_ne hn'' hnm hnn c1 a1
          refine ⟨i, c1, c2, ?_⟩
          have := hcnt' n' hnn
          simp only [upd_ne _ _ hne, c3, this]
      · intro n' hn'
        have hnn : n' ≠ n := by rintro rfl; exact hn' hstay
        exact hR.unnamed n' fun hx => hn' ((names n' hnn).2 hx)
      · simp only [if_pos hstay]; exact hR.log

end Ecl.Shared
