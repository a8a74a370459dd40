import Verif.Props.C25_C26_C71_Files
import Verif.Spec.LogThreads

/-! # C108: several log streams on one file -/
set_option autoImplicit false
set_option linter.unusedSimpArgs false

namespace Ecl.Props
open LogThreads LogThreads.Spec Ecl.Spec
open Shared (Op Out Env World)
variable {α : Type _}

namespace C108

theorem runOps_append {σ Op α : Type _} (step : σ → Op → Res σ α) (a b : List Op) (s : σ) :
    runOps step s (a ++ b) =
      (runOps step s a).bind fun r => (runOps step r.1 b).map fun q => (q.1, r.2 ++ q.2) := by
  induction a generalizing s with
  | nil => simp [runOps]
  | cons op ops ih =>
    rw [List.cons_append, runOps_cons, runOps_cons]
    cases (step s op).obs with
    | none => simp
    | some r =>
      simp only [Option.bind_some, ih]
      cases runOps step r.1 ops with
      | none => simp
      | some q =>
        simp only [Option.bind_some, Option.map_some]
        cases runOps step q.1 b <;> simp

/-- Constructing with a name, and default construction followed by opening. -/
theorem two_steps (m : Mode) (env : Env) (w w' : World α) (h n : Nat) (hh : w.hung = false)
    (e : Shared.step m env w (.construct h n) = .ok w' .unit) :
    runOps (Shared.step m env) w [.default h, .openFile h n] = some (w', [.ok .unit, .ok (.bool true)]) := by
  unfold Shared.step at e
  simp only [hh, Bool.false_eq_true, if_false] at e
  cases hd : w.handles h with
  | some _ => rw [hd] at e; cases e
  | none =>
    rw [hd] at e
    dsimp only at e
    have s1 : Shared.step m env w (.default h) =
        .ok { w with handles := Shared.upd w.handles h (some ⟨none, []⟩) } .unit := by
      simp [Shared.step, hh, hd]
    rw [runOps_cons, s1]
    simp only [Res.obs, Option.bind_some]
    rw [runOps_cons]
    unfold Shared.step
    rw [if_neg (by simp [hh])]
    have key : ∀ (w1 : World α), Shared.openInst m env { w with handles := Shared.upd w.handles h (some ⟨none, []⟩) } n =
        match Shared.openInst m env w n with
        | .ok w2 r => .ok { w2 with handles := Shared.upd w2.handles h (some ⟨none, []⟩) } r
        | .throw w2 e => .throw { w2 with handles := Shared.upd w2.handles h (some ⟨none, []⟩) } e
        | .hang w2 => .hang { w2 with handles := Shared.upd w2.handles h (some ⟨none, []⟩) }
        | .ub => .ub := by
      intro _
      simp only [Shared.openInst, Shared.register, Shared.lock]
      cases hl : w.locked with
      | true => cases m <;> simp [hl]
      | false =>
        simp only [hl, Bool.false_eq_true, if_false]
        cases hm : w.map n with
        | some id =>
          simp only [hm]
          cases hp : w.heap id with
          | none => simp [hp]
          | some c => simp [hp, Shared.upd]
        | none =>
          simp only [hm]
          cases hc : env.canOpen n <;> simp [hc, Shared.upd]
    simp only [key w, Shared.upd, if_true]
    cases ho : Shared.openInst m env w n with
    | ok w2 r =>
      obtain ⟨id, oe⟩ := r
      cases oe with
      | some e' => rw [ho] at e; simp at e
      | none =>
        rw [ho] at e
        simp only [Res.ok.injEq, and_true] at e
        rw [← e]
        simp only [Res.obs, Option.bind_some, runOps, Option.map_some, Option.some.injEq, Prod.mk.injEq, and_true,
          Shared.upd_upd]
    | throw w2 e' => rw [ho] at e; simp at e
    | hang w2 => rw [ho] at e; simp at e
    | ub => rw [ho] at e; simp at e

/-- The state of the specification once the streams are constructed. -/
def opened (n : Nat) : Nat → Sharing α
  | 0 => Sharing.init
  | k + 1 => (shareStep (opened n k) (.construct k n)).1

theorem opened_name (n k h : Nat) : (opened (α := α) n k).nameOf h = if h < k then some n else none := by
  induction k with
  | zero => simp [opened, Sharing.init, Sharing.nameOf]
  | succ k ih =>
    simp only [opened, shareStep, Sharing.nameOf, List.lookup_cons] at ih ⊢
    by_cases hh : h = k
    · subst hh; simp
    · have : (h == k) = false := by simpa using hh
      rw [this]
      dsimp only
      rw [ih]
      by_cases h1 : h < k
      · rw [if_pos h1, if_pos (by omega)]
      · rw [if_neg h1, if_neg (by omega)]

theorem opened_pend (n k h : Nat) : (opened (α := α) n k).pend h = [] := by
  induction k with
  | zero => rfl
  | succ k ih =>
    simp only [opened, shareStep, setAt]
    split
    · rfl
    · exact ih

theorem opened_file (n k : Nat) : (opened (α := α) n k).file n = [] := by
  induction k with
  | zero => rfl
  | succ k ih => simpa only [opened, shareStep] using ih

theorem constructed (m : Mode) (env : Env) (n : Nat) (ho : env.canOpen n = true) (k : Nat) :
    ∃ w obs, runOps (Shared.step m env) (World.init : World α) (construct n k) = some (w, obs) ∧
      Shared.Rel w (opened n k) ∧ ∀ o ∈ obs, Good o := by
  induction k with
  | zero => exact ⟨_, _, rfl, Shared.Rel.init, by simp⟩
  | succ k ih =>
    obtain ⟨w, obs, h1, h2, h3⟩ := ih
    obtain ⟨w', h4, h5⟩ := h2.construct m env k n (by rw [opened_name]; simp) ho
    refine ⟨w', obs ++ [.ok .unit, .ok (.bool true)], ?_, h5, by
      intro o ho'
      rcases List.mem_append.1 ho' with h | h
      · exact h3 o h
      · simp only [List.mem_cons, List.not_mem_nil, or_false] at h
        rcases h with rfl | rfl <;> trivial⟩
    rw [construct, runOps_append, h1]
    simp only [Option.bind_some, two_steps m env w w' k n h2.hung h4, Option.map_some]

theorem cur_short (nl : α) (h : Nat) : ∀ (acts : List (Act α)) (cur : List α),
    (∀ l ∈ lines nl h cur acts, l.length < 4096) → (unfinished h cur acts).length < 4096 → cur.length < 4096
  | [], cur, _, hu => hu
  | .say h' text :: as, cur, hl, hu => by
    simp only [lines, unfinished] at hl hu
    by_cases hh : h' = h
    · rw [if_pos hh] at hl hu
      have := cur_short nl h as _ hl hu
      simp at this; omega
    · rw [if_neg hh] at hl hu
      exact cur_short nl h as _ hl hu
  | .endl h' :: as, cur, hl, hu => by
    simp only [lines, unfinished] at hl hu
    by_cases hh : h' = h
    · rw [if_pos hh] at hl
      have := hl _ List.mem_cons_self
      simp at this; omega
    · rw [if_neg hh] at hl hu
      exact cur_short nl h as _ hl hu

theorem end_short {nl : α} {h : Nat} {as : List (Act α)} {cur : List α}
    (hl : ∀ l ∈ lines nl h cur (.endl h :: as), l.length < 4096) : (cur ++ [nl]).length < 4096 := by
  simp only [lines, if_true] at hl
  exact hl _ List.mem_cons_self

/-- The specification machine on short lines. -/
theorem follow (nl : α) (n k : Nat) (env : Env) : ∀ (acts : List (Act α)) (t : Sharing α),
    (∀ a ∈ acts, who a < k) → (∀ h, h < k → t.nameOf h = some n) →
    (∀ h, (∀ l ∈ lines nl h (t.pend h) acts, l.length < 4096) ∧ (unfinished h (t.pend h) acts).length < 4096) →
    Legal shareStep (shLegal env) t (acts.flatMap (Act.calls nl)) ∧
    (∀ o ∈ (runSpec shareStep t (acts.flatMap (Act.calls nl))).2, Good o) ∧
    ∃ order : List (Nat × List α),
      (runSpec shareStep t (acts.flatMap (Act.calls nl))).1.file n = t.file n ++ (order.map Prod.snd).flatten ∧
      ∀ h, (order.filter fun p => p.1 == h).map Prod.snd = lines nl h (t.pend h) acts
  | [], t, _, _, _ => ⟨trivial, by simp [runSpec], [], by simp [runSpec], by simp [lines]⟩
  | .say h text :: as, t, hk, hn, hs => by
    have hhk : h < k := hk _ List.mem_cons_self
    have hsh := hs h
    simp only [lines, unfinished, if_true] at hsh
    have hlen := cur_short nl h as _ hsh.1 hsh.2
    have htake : t.take h n text = { t with pend := setAt t.pend h (t.pend h ++ text) } := by
      simp only [Sharing.take, Shared.blocks_small hlen, Shared.leftover_small hlen, List.append_nil]
      congr 1
      funext j
      simp only [setAt]
      split
      · subst_vars; rfl
      · rfl
    have hstep : shareStep t (.write h text) =
        ({ t with pend := setAt t.pend h (t.pend h ++ text) }, .ok (.num text.length)) := by
      simp only [shareStep, hn h hhk, htake]
    obtain ⟨a, b, order, c, d⟩ := follow nl n k env as { t with pend := setAt t.pend h (t.pend h ++ text) }
      (fun a ha => hk a (List.mem_cons_of_mem _ ha)) hn (by
        intro h'
        have := hs h'
        simp only [lines, unfinished] at this
        by_cases hh : h' = h
        · subst hh; simpa [setAt] using this
        · rw [if_neg (Ne.symm hh), if_neg (Ne.symm hh)] at this
          simpa [setAt, hh] using this)
    simp only [List.flatMap_cons, Act.calls, List.cons_append, List.nil_append]
    refine ⟨⟨⟨by rw [hn h hhk]; rfl, ?_⟩, by rw [hstep]; exact a⟩, ?_, order, ?_, ?_⟩
    · simp at hlen; omega
    · intro o ho
      simp only [runSpec, hstep, List.mem_cons] at ho
      rcases ho with rfl | ho
      · trivial
      · exact b o ho
    · simp only [runSpec, hstep]; exact c
    · intro h'
      rw [d h']
      simp only [lines]
      by_cases hh : h' = h
      · subst hh; simp [setAt]
      · rw [if_neg (Ne.symm hh)]; simp [setAt, hh]
  | .endl h :: as, t, hk, hn, hs => by
    have hhk : h < k := hk _ List.mem_cons_self
    have hlen := end_short (hs h).1
    have htake : t.take h n [nl] = { t with pend := setAt t.pend h (t.pend h ++ [nl]) } := by
      simp only [Sharing.take, Shared.blocks_small hlen, Shared.leftover_small hlen, List.append_nil]
      congr 1
      funext j
      simp only [setAt]
      split
      · subst_vars; rfl
      · rfl
    have hstep : shareStep t (.write h [nl]) =
        ({ t with pend := setAt t.pend h (t.pend h ++ [nl]) }, .ok (.num 1)) := by
      simp [shareStep, hn h hhk, htake]
    have hflush : shareStep { t with pend := setAt t.pend h (t.pend h ++ [nl]) } (.flush h) =
        ({ t with pend := setAt t.pend h [], file := setAt t.file n (t.file n ++ (t.pend h ++ [nl])) },
          .ok (.bool true)) := by
      have : (Sharing.nameOf { t with pend := setAt t.pend h (t.pend h ++ [nl]) } h) = some n := hn h hhk
      simp only [shareStep, this]
      simp only [setAt, if_true, Prod.mk.injEq, and_true]
      congr 1
      funext j
      simp only [setAt]
      split <;> rfl
    obtain ⟨a, b, order, c, d⟩ := follow nl n k env as
      { t with pend := setAt t.pend h [], file := setAt t.file n (t.file n ++ (t.pend h ++ [nl])) }
      (fun a ha => hk a (List.mem_cons_of_mem _ ha)) hn (by
        intro h'
        have := hs h'
        simp only [lines, unfinished] at this
        by_cases hh : h' = h
        · subst hh
          simp only [if_true, List.mem_cons, forall_eq_or_imp] at this
          simpa [setAt] using ⟨this.1.2, this.2⟩
        · rw [if_neg (Ne.symm hh), if_neg (Ne.symm hh)] at this
          simpa [setAt, hh] using this)
    simp only [List.flatMap_cons, Act.calls, List.cons_append, List.nil_append]
    refine ⟨⟨⟨by rw [hn h hhk]; rfl, by simp⟩, ?_⟩, ?_, (h, t.pend h ++ [nl]) :: order, ?_, ?_⟩
    · rw [hstep]
      refine ⟨⟨?_, by simp [setAt]⟩, by rw [hflush]; exact a⟩
      have : (Sharing.nameOf { t with pend := setAt t.pend h (t.pend h ++ [nl]) } h) = some n := hn h hhk
      dsimp only
      rw [this]; rfl
    · intro o ho
      simp only [runSpec, hstep, hflush, List.mem_cons] at ho
      rcases ho with rfl | rfl | ho
      · trivial
      · trivial
      · exact b o ho
    · simp only [runSpec, hstep, hflush, c, setAt, if_true, List.map_cons, List.flatten_cons,
        List.append_assoc]
    · intro h'
      have := d h'
      simp only [lines]
      by_cases hh : h' = h
      · subst hh
        rw [if_pos rfl, List.filter_cons_of_pos (by simp), List.map_cons, this]
        simp [setAt]
      · rw [if_neg (Ne.symm hh), List.filter_cons_of_neg (by simpa using Ne.symm hh), this]
        simp [setAt, hh]

end C108

/-- Streams `0`, …, `k-1` on a file that can be opened and written: if every line, with its newline, is shorter
than 4096 bytes, then no call fails, and whatever the order in which the threads run, the file consists of
whole lines, those of each stream complete and in its order. -/
theorem C108_lines_partial (m : Mode) (env : Env) (hw : ∀ n, env.canWrite n = true) (nl : α) (n k : Nat)
    (ho : env.canOpen n = true) (acts : List (Act α)) (hk : ∀ a ∈ acts, who a < k) (hs : Short nl acts) :
    ∃ w obs order, run m env nl n k acts = some (w, obs) ∧ (∀ o ∈ obs, Good o) ∧
      Untangled nl acts (w.file n) order := by
  obtain ⟨w, obs, h1, h2, h3⟩ := C108.constructed (α := α) m env n ho k
  obtain ⟨a, b, order, c, d⟩ := C108.follow nl n k env acts (C108.opened n k) hk
    (fun h hh => by rw [C108.opened_name, if_pos hh]) (fun h => by rw [C108.opened_pend]; exact hs h)
  obtain ⟨w', h4, h5⟩ := refines (Shared.step m env) shareStep (shLegal env) Shared.Rel
    (fun s t op => share_step m env hw s t op) _ _ _ h2 a
  refine ⟨w', obs ++ (runSpec shareStep (C108.opened n k) (acts.flatMap (Act.calls nl))).2, order, ?_, ?_, ?_, ?_⟩
  · rw [run, C108.runOps_append, h1]
    simp only [Option.bind_some, h4, Option.map_some]
  · intro o ho'
    exact (List.mem_append.1 ho').elim (h3 o) (b o)
  · rw [h5.file, c, C108.opened_file, List.nil_append]
  · intro h
    rw [d h, C108.opened_pend]

/-- Two streams, three lines, said in pieces. -/
example : let acts : List (Act Nat) := [.say 0 [1], .say 1 [5, 6], .say 0 [2, 3], .endl 1, .endl 0, .say 1 [7], .endl 1]
    Short 0 acts ∧ (∀ a ∈ acts, who a < 2) ∧
    (run .release ⟨fun _ => true, fun _ => true⟩ 0 9 2 acts).map (fun r => r.1.file 9) =
      some [5, 6, 0, 1, 2, 3, 0, 7, 0] := by
  refine ⟨?_, by decide, by decide⟩
  intro h
  by_cases h0 : 0 = h
  · subst h0; decide
  · by_cases h1 : 1 = h
    · subst h1; decide
    · simp [lines, unfinished, h0, h1]

/-- A longer line may be torn apart: stream `0` says more than the buffer holds, then stream `1` finishes a line,
then stream `0` finishes its own. -/
theorem C108_fails_long_line (m : Mode) (env : Env) (hw : ∀ n, env.canWrite n = true) (n : Nat)
    (ho : env.canOpen n = true) :
    ∃ (acts : List (Act Nat)) (w : _) (obs : _), run m env 0 n 2 acts = some (w, obs) ∧ (∀ o ∈ obs, Good o) ∧
      (∀ a ∈ acts, who a < 2) ∧ ∀ order, ¬ Untangled 0 acts (w.file n) order := by
  obtain ⟨x, hx, hone⟩ : ∃ x : List Nat, x.length = 4096 ∧ ∀ b ∈ x, b = 1 :=
    ⟨List.replicate 4096 1, List.length_replicate, fun _ hb => List.eq_of_mem_replicate hb⟩
  let acts : List (Act Nat) := [.say 0 x, .say 1 [2], .endl 1, .endl 0]
  obtain ⟨w, obs, h1, h2, h3⟩ := C108.constructed (α := Nat) m env n ho 2
  have hname := C108.opened_name (α := Nat) n 2
  have hpend := C108.opened_pend (α := Nat) n 2
  have hfile := C108.opened_file (α := Nat) n 2
  generalize C108.opened (α := Nat) n 2 = t at h2 hname hpend hfile
  have n0 : t.nameOf 0 = some n := by rw [hname]; rfl
  have n1 : t.nameOf 1 = some n := by rw [hname]; rfl
  let t1 : Sharing Nat := { t with pend := setAt t.pend 0 [], file := setAt t.file n x }
  have e1 : shareStep t (.write 0 x) = (t1, .ok (.num 4096)) := by
    have hb : blocks x = x := by
      have := Shared.blocks_append (a := x) [] hx
      simpa [Shared.blocks_small] using this
    have hl : leftover x = [] := by
      have := Shared.leftover_append (a := x) [] hx
      simpa [Shared.leftover_small] using this
    simp only [shareStep, n0, Sharing.take, hpend, List.nil_append, hb, hl, hfile, hx, t1]
    rfl
  let t2 : Sharing Nat := { t1 with pend := setAt t1.pend 1 [2] }
  have setself : ∀ (f : Nat → List Nat) (i : Nat), setAt f i (f i) = f := by
    intro f i; funext j; simp only [setAt]; split
    · subst_vars; rfl
    · rfl
  have take_small : ∀ (u : Sharing Nat) (h : Nat) (bs : List Nat), (u.pend h ++ bs).length < 4096 →
      u.take h n bs = { u with pend := setAt u.pend h (u.pend h ++ bs) } := by
    intro u h bs hlen
    simp only [Sharing.take, Shared.blocks_small hlen, Shared.leftover_small hlen, List.append_nil, setself]
  have e2 : shareStep t1 (.write 1 [2]) = (t2, .ok (.num 1)) := by
    have hp : t1.pend 1 = [] := by simp [t1, setAt, hpend]
    have hn1 : t1.nameOf 1 = some n := n1
    simp [shareStep, hn1, take_small t1 1 [2] (by simp [hp]), hp, t2]
  let t3 : Sharing Nat := { t2 with pend := setAt t2.pend 1 [2, 0] }
  have e3 : shareStep t2 (.write 1 [0]) = (t3, .ok (.num 1)) := by
    have hp : t2.pend 1 = [2] := by simp [t2, setAt]
    have hn1 : t2.nameOf 1 = some n := n1
    simp [shareStep, hn1, take_small t2 1 [0] (by simp [hp]), hp, t3]
  let t4 : Sharing Nat := { t3 with pend := setAt t3.pend 1 [], file := setAt t3.file n (x ++ [2, 0]) }
  have e4 : shareStep t3 (.flush 1) = (t4, .ok (.bool true)) := by
    have hp : t3.pend 1 = [2, 0] := by simp [t3, setAt]
    have hn1 : t3.nameOf 1 = some n := n1
    have hf : t3.file n = x := by simp [t3, t2, t1, setAt]
    simp [shareStep, hn1, hp, hf, t4]
  let t5 : Sharing Nat := { t4 with pend := setAt t4.pend 0 [0] }
  have e5 : shareStep t4 (.write 0 [0]) = (t5, .ok (.num 1)) := by
    have hp : t4.pend 0 = [] := by simp [t4, t3, t2, t1, setAt]
    have hn0 : t4.nameOf 0 = some n := n0
    simp [shareStep, hn0, take_small t4 0 [0] (by simp [hp]), hp, t5]
  let t6 : Sharing Nat := { t5 with pend := setAt t5.pend 0 [], file := setAt t5.file n (x ++ [2, 0] ++ [0]) }
  have e6 : shareStep t5 (.flush 0) = (t6, .ok (.bool true)) := by
    have hp : t5.pend 0 = [0] := by simp [t5, setAt]
    have hn0 : t5.nameOf 0 = some n := n0
    have hf : t5.file n = x ++ [2, 0] := by simp [t5, t4, setAt]
    simp [shareStep, hn0, hp, hf, t6]
  have hspec : runSpec shareStep t (acts.flatMap (Act.calls 0)) = (t6, [.ok (.num 4096), .ok (.num 1), .ok (.num 1),
      .ok (.bool true), .ok (.num 1), .ok (.bool true)]) := by
    simp only [acts, List.flatMap_cons, List.flatMap_nil, Act.calls, List.cons_append, List.nil_append, runSpec,
      e1, e2, e3, e4, e5, e6]
  have hlegal : Legal shareStep (shLegal env) t (acts.flatMap (Act.calls 0)) := by
    simp only [acts, List.flatMap_cons, List.flatMap_nil, Act.calls, List.cons_append, List.nil_append, Legal,
      e1, e2, e3, e4, e5, e6, shLegal, and_true]
    refine ⟨⟨by rw [n0]; rfl, by rw [hx]; decide⟩, ⟨?_, by simp⟩, ⟨?_, by simp⟩, ⟨?_, by simp [t3, setAt]⟩,
      ⟨?_, by simp⟩, ?_, by simp [t5, setAt]⟩
    · have : t1.nameOf 1 = some n := n1
      rw [this]; rfl
    · have : t2.nameOf 1 = some n := n1
      rw [this]; rfl
    · have : t3.nameOf 1 = some n := n1
      rw [this]; rfl
    · have : t4.nameOf 0 = some n := n0
      rw [this]; rfl
    · have : t5.nameOf 0 = some n := n0
      rw [this]; rfl
  obtain ⟨w', h4, h5⟩ := refines (Shared.step m env) shareStep (shLegal env) Shared.Rel
    (fun s t op => share_step m env hw s t op) _ _ _ h2 hlegal
  rw [hspec] at h4 h5
  refine ⟨acts, w', obs ++ [.ok (.num 4096), .ok (.num 1), .ok (.num 1),
      .ok (.bool true), .ok (.num 1), .ok (.bool true)], ?_, ?_, ?_, ?_⟩
  · rw [run, C108.runOps_append, h1]
    simp only [Option.bind_some, h4, Option.map_some]
  · intro o ho'
    refine (List.mem_append.1 ho').elim (h3 o) fun h => ?_
    simp only [List.mem_cons, List.not_mem_nil, or_false] at h
    rcases h with rfl | rfl | rfl | rfl | rfl | rfl <;> trivial
  · simp [acts, who]
  · rintro order ⟨hf, hord⟩
    have hfile' : w'.file n = x ++ [2, 0, 0] := by
      rw [h5.file]; simp [t6, setAt]
    rw [hfile'] at hf
    have hall : ∀ p ∈ order, p.2 = x ++ [0] ∨ p.2 = [2, 0] := by
      intro p hp
      have : p.2 ∈ lines 0 p.1 [] acts := by
        rw [← hord p.1]
        exact List.mem_map_of_mem (List.mem_filter.2 ⟨hp, by simp⟩)
      simp only [acts, lines, List.nil_append] at this
      by_cases h0 : 0 = p.1
      · rw [← h0] at this
        simp only [if_true, Nat.one_ne_zero, if_false, List.mem_singleton] at this
        exact Or.inl this
      · rw [if_neg h0, if_neg h0] at this
        by_cases h1 : 1 = p.1
        · rw [if_pos h1, if_pos h1] at this
          simp only [List.mem_singleton, List.cons_append, List.nil_append] at this
          exact Or.inr this
        · rw [if_neg h1, if_neg h1] at this
          simp at this
    rcases List.eq_nil_or_concat order with rfl | ⟨os, p, rfl⟩
    · simp at hf
    · have hp := hall p (by simp)
      simp only [List.concat_eq_append, List.map_append, List.map_cons, List.map_nil, List.flatten_append,
        List.flatten_cons, List.flatten_nil, List.append_nil] at hf
      have hr := congrArg List.reverse hf
      rcases hp with hp | hp
      · rw [hp] at hr
        have hxr : ∃ ys, x.reverse = 1 :: ys := by
          cases hc : x.reverse with
          | nil => have := congrArg List.length hc; simp [hx] at this
          | cons y ys => exact ⟨ys, by rw [hone y (List.mem_reverse.1 (hc ▸ List.mem_cons_self))]⟩
        obtain ⟨ys, hys⟩ := hxr
        simp [hys] at hr
      · rw [hp] at hr
        simp at hr

/-- A line that fills the buffer exactly is written, but `endl` then finds nothing to flush and reports an
error: it throws in debug builds and returns an error in release builds. -/
theorem C108_fails_exact_line (m : Mode) (env : Env) (hw : ∀ n, env.canWrite n = true) (nl : α) (n : Nat)
    (ho : env.canOpen n = true) (x : List α) (hx : x.length = 4095) :
    ∃ w obs, run m env nl n 1 [.say 0 x, .endl 0] =
        some (w, obs ++ [if m = .debug then .error .writeError else .ok (.bool false)]) ∧
      (∀ o ∈ obs, Good o) ∧ w.file n = x ++ [nl] := by
  obtain ⟨w, obs, h1, h2, h3⟩ := C108.constructed (α := α) m env n ho 1
  have hname := C108.opened_name (α := α) n 1
  have hpend := C108.opened_pend (α := α) n 1
  have hfile := C108.opened_file (α := α) n 1
  generalize C108.opened (α := α) n 1 = t at h2 hname hpend hfile
  have n0 : t.nameOf 0 = some n := by rw [hname]; rfl
  have hx1 : x.length < 4096 := by omega
  have hx2 : (x ++ [nl]).length = 4096 := by simp [hx]
  have hb : blocks (x ++ [nl]) = x ++ [nl] := by
    have := Shared.blocks_append (a := x ++ [nl]) [] hx2
    simpa only [List.append_nil, Shared.blocks_small (l := ([] : List α)) (Nat.zero_lt_succ 4095)] using this
  have hl : leftover (x ++ [nl]) = [] := by
    have := Shared.leftover_append (a := x ++ [nl]) [] hx2
    simpa only [List.append_nil, Shared.leftover_small (l := ([] : List α)) (Nat.zero_lt_succ 4095)] using this
  have e1 : shareStep t (.write 0 x) = (t.take 0 n x, .ok (.num (x.length : Nat))) := by
    simp only [shareStep, n0]
  have hp1 : (t.take 0 n x).pend 0 = x := by
    simp [Sharing.take, hpend, setAt, Shared.leftover_small hx1]
  have hf1 : (t.take 0 n x).file n = [] := by
    simp [Sharing.take, hpend, hfile, setAt, Shared.blocks_small hx1]
  have n1 : (t.take 0 n x).nameOf 0 = some n := n0
  have e2 : shareStep (t.take 0 n x) (.write 0 [nl]) = ((t.take 0 n x).take 0 n [nl], .ok (.num ([nl].length : Nat))) := by
    simp only [shareStep, n1]
  have hp2 : ((t.take 0 n x).take 0 n [nl]).pend 0 = [] := by
    rw [Sharing.take]
    simp only [hp1, setAt, if_true, hl]
  have hf2 : ((t.take 0 n x).take 0 n [nl]).file n = x ++ [nl] := by
    rw [Sharing.take]
    simp only [hp1, hf1, setAt, if_true, hb, List.nil_append]
  obtain ⟨w', h4, h5⟩ := refines (Shared.step m env) shareStep (shLegal env) Shared.Rel
    (fun s t op => share_step m env hw s t op) [.write 0 x, .write 0 [nl]] _ _ h2
    (by
      simp only [Legal, e1, e2, shLegal, and_true]
      exact ⟨⟨by rw [n0]; rfl, by rw [hx]; decide⟩, by rw [n1]; rfl, by simp⟩)
  simp only [runSpec, e1, e2] at h4 h5
  have n2 : ((t.take 0 n x).take 0 n [nl]).nameOf 0 = some n := n0
  generalize (t.take 0 n x).take 0 n [nl] = t2 at h4 h5 hp2 hf2 n2
  have hm : n ∈ t2.live.map Prod.snd := List.mem_map.2 ⟨_, Shared.mem_of_nameOf n2, rfl⟩
  obtain ⟨id, a1, a2, _⟩ := h5.alive 0 n n2
  obtain ⟨id', b1, _, b2⟩ := h5.named n hm
  obtain rfl : id = id' := by rw [a1] at b1; exact Option.some.inj b1
  rw [hp2] at a2
  have hfw : w'.file n = x ++ [nl] := by rw [h5.file, hf2]
  have hrun : run m env nl n 1 [.say 0 x, .endl 0] =
      (runOps (Shared.step m env) w' [.flush 0]).map fun q =>
        (q.1, obs ++ ([.ok (.num (x.length : Nat)), .ok (.num ([nl].length : Nat))] ++ q.2)) := by
    rw [run, C108.runOps_append, h1]
    simp only [Option.bind_some]
    rw [show ([.say 0 x, .endl 0] : List (Act α)).flatMap (Act.calls nl) =
      [.write 0 x, .write 0 [nl]] ++ [.flush 0] from rfl, C108.runOps_append, h4]
    simp only [Option.bind_some, Option.map_map]
    rfl
  rw [hrun]
  have hgood : ∀ o ∈ obs ++ [.ok (.num (x.length : Nat)), .ok (.num ([nl].length : Nat))], Good o := by
    intro o ho'
    refine (List.mem_append.1 ho').elim (h3 o) fun h => ?_
    simp only [List.mem_cons, List.not_mem_nil, or_false] at h
    rcases h with rfl | rfl <;> trivial
  have hstep : Shared.step m env w' (.flush 0) = (Shared.flush m env w' 0 ⟨some id, []⟩).toRes .bool := by
    simp only [Shared.step, h5.hung, Bool.false_eq_true, if_false, a2]
  simp only [runOps, hstep, Shared.flush, b2, ne_eq, not_true_eq_false, and_false, if_false]
  cases m
  · exact ⟨_, obs ++ [.ok (.num (x.length : Nat)), .ok (.num ([nl].length : Nat))],
      congrArg some (Prod.ext rfl (List.append_assoc ..).symm), hgood, hfw⟩
  · exact ⟨_, obs ++ [.ok (.num (x.length : Nat)), .ok (.num ([nl].length : Nat))],
      congrArg some (Prod.ext rfl (List.append_assoc ..).symm), hgood, hfw⟩

end Ecl.Props
