import Verif.Spec.Descriptors
import Mathlib.Data.List.Perm.Subperm

/-!
# C105: devices hold a descriptor exactly while they are open, and close only their own
-/
set_option autoImplicit false
set_option linter.unusedSimpArgs false

namespace Ecl.Props.C105
open Ecl Ecl.Desc Ecl.Spec

/-- An invariant of the steps holds after every history. -/
theorem run_inv {σ Op α : Type} (step : σ → Op → Res σ α) (P : σ → Prop) (ok : Op → Prop)
    (h : ∀ s op, P s → ok op → (∀ s' a, step s op = .ok s' a → P s') ∧ (∀ s' e, step s op = .throw s' e → P s')) :
    ∀ (ops : List Op) (s : σ), P s → (∀ op ∈ ops, ok op) → ∀ s' os, runOps step s ops = some (s', os) → P s'
  | [], s, hp, _, s', os, hr => by
    simp only [runOps, Option.some.injEq, Prod.mk.injEq] at hr
    exact hr.1 ▸ hp
  | op :: ops, s, hp, hops, s', os, hr => by
    have hs := h s op hp (hops op (by simp))
    simp only [runOps] at hr
    cases e : step s op with
    | ub => rw [e] at hr; simp at hr
    | ok s1 a =>
      rw [e] at hr
      simp only [Option.map_eq_some_iff] at hr
      obtain ⟨⟨t, o⟩, h1, h2⟩ := hr
      simp only [Prod.mk.injEq] at h2
      exact run_inv step P ok h ops s1 (hs.1 s1 a e) (fun o ho => hops o (by simp [ho])) s' o (h2.1 ▸ h1)
    | throw s1 x =>
      rw [e] at hr
      simp only [Option.map_eq_some_iff] at hr
      obtain ⟨⟨t, o⟩, h1, h2⟩ := hr
      simp only [Prod.mk.injEq] at h2
      exact run_inv step P ok h ops s1 (hs.2 s1 x e) (fun o ho => hops o (by simp [ho])) s' o (h2.1 ▸ h1)

/-- The device holds what its members say, and nothing of the others'. -/
def Own (isOpen : Bool) (fd : Int) (os : Os) : Prop :=
  if isOpen then ∃ n : Nat, fd = n ∧ os.mine = [n] ∧ n ∉ os.others else os.mine = []

theorem Own.balanced {b : Bool} {fd : Int} {os : Os} (h : Own b fd os) : Balanced b os := by
  cases b
  · simp only [Own, Bool.false_eq_true, if_false] at h; simp [Balanced, h]
  · simp only [Own, if_true] at h; obtain ⟨n, _, h, _⟩ := h; simp [Balanced, h]

/-- Closing an open device. -/
theorem close_own {fd : Int} {os : Os} (h : Own true fd os) : os.close fd = ⟨[], os.others⟩ := by
  simp only [Own, if_true] at h
  obtain ⟨n, rfl, h1, h2⟩ := h
  simp only [Os.close, h1]
  congr 1
  · simp
  · rw [List.filter_eq_self]
    intro k hk
    have : k ≠ n := fun e => h2 (e ▸ hk)
    simp; omega

/-- Opening a closed device. -/
theorem get_own {alloc : List Nat → Nat} (ha : Fresh alloc) {os : Os} (h : os.mine = []) :
    Own true (alloc os.used) (os.get alloc) := by
  have := ha os.used
  simp only [Os.used, h, List.nil_append] at this
  simp only [Own, if_true]
  exact ⟨_, rfl, by simp [Os.get, h], by simpa [Os.get, Os.used, h] using this⟩

/-- The rest of the program opens a descriptor. -/
theorem other_own {alloc : List Nat → Nat} (ha : Fresh alloc) {b : Bool} {fd : Int} {os : Os} (h : Own b fd os) :
    Own b fd { os with others := alloc os.used :: os.others } := by
  cases b
  · simpa [Own] using h
  · simp only [Own, if_true] at h ⊢
    obtain ⟨n, h1, h2, h3⟩ := h
    refine ⟨n, h1, h2, ?_⟩
    have := ha os.used
    simp only [Os.used, h2] at this
    simp only [List.mem_cons, not_or]
    refine ⟨fun e => this ?_, h3⟩
    simp only [Os.used, h2] at e
    rw [← e]; simp

end Ecl.Props.C105

namespace Ecl.Props
open Ecl Ecl.Desc Ecl.Spec C105

/-! ## Socket clients -/

private def CInv (s : Client) : Prop := (s.isOpen = true → s.fd ≠ none) ∧ Own s.isOpen (s.fd.getD (-1)) s.os

private theorem client_close {s s' : Client} {a : Bool} (h : CInv s) (e : s.close = .ok s' a) :
    CInv s' ∧ s'.isOpen = false ∧ (s.isOpen = true → s'.os.others = s.os.others) := by
  unfold Client.close at e
  cases hf : s.fd with
  | none => simp [hf] at e
  | some n =>
    simp only [hf, Res.ok.injEq] at e
    obtain ⟨rfl, _⟩ := e
    have h2 := h.2
    rw [hf, Option.getD_some] at h2
    refine ⟨⟨by simp, ?_⟩, rfl, ?_⟩
    · cases hb : s.isOpen with
      | true => rw [hb] at h2; simp [Own, close_own h2]
      | false =>
        rw [hb] at h2
        simp only [Own, Bool.false_eq_true, if_false] at h2
        simp [Own, Os.close, h2]
    · intro hb
      rw [hb] at h2
      simp [close_own h2]

private theorem client_connect {alloc : List Nat → Nat} (ha : Fresh alloc) {s : Client} (h : s.os.mine = [])
    (hb : s.isOpen = false) (r : Conn) :
    (∀ s' a, s.connect alloc r = .ok s' a → CInv s' ∧ s'.os.others = s.os.others) ∧
    (∀ s' e, s.connect alloc r = .throw s' e → CInv s' ∧ s'.os.others = s.os.others) := by
  have g := get_own ha h
  have c := close_own g
  cases r <;> simp only [Client.connect, Res.ok.injEq, Res.throw.injEq, reduceCtorEq, false_implies, implies_true,
    and_true, true_and] <;> rintro s' x ⟨rfl, _⟩
  · exact ⟨⟨by simp [hb], by simp [Own, hb, h]⟩, rfl⟩
  · exact ⟨⟨by simp, by simp [Own, c]⟩, by rw [c]; rfl⟩
  · exact ⟨⟨by simp, by simp [Own, c]⟩, by rw [c]; rfl⟩
  · exact ⟨⟨by simp, by simpa using g⟩, rfl⟩

private theorem cinv_mine {s : Client} (h : CInv s) (hb : s.isOpen = false) : s.os.mine = [] := by
  have := h.2
  rw [hb] at this
  simpa [Own] using this

/-- One call: what the client holds, and that it leaves the rest alone unless `close` is called on a closed device. -/
private theorem client_step {alloc : List Nat → Nat} (ha : Fresh alloc) (s : Client) (op : COp) (h : CInv s) :
    (∀ s' a, s.step alloc op = .ok s' a → CInv s') ∧ (∀ s' e, s.step alloc op = .throw s' e → CInv s') ∧
    ((∃ r, op = .open r) ∨ op = .gone ∨ (op = .close ∧ s.isOpen = true) →
      (∀ s' a, s.step alloc op = .ok s' a → s'.os.others = s.os.others) ∧
      (∀ s' e, s.step alloc op = .throw s' e → s'.os.others = s.os.others)) := by
  have nothrow : ∀ s' e, s.close ≠ .throw s' e := by
    intro s' e; unfold Client.close; cases s.fd <;> simp
  cases op with
  | «open» r =>
    simp only [Client.step]
    cases hb : s.isOpen with
    | false =>
      have k := client_connect ha (cinv_mine h hb) hb r
      simp only [Bool.false_eq_true, if_false]
      exact ⟨fun s' a e => (k.1 s' a e).1, fun s' x e => (k.2 s' x e).1,
        fun _ => ⟨fun s' a e => (k.1 s' a e).2, fun s' x e => (k.2 s' x e).2⟩⟩
    | true =>
      simp only [if_true]
      cases e : s.close with
      | ub => simp [Res.bind]
      | throw s1 x => exact absurd e (nothrow s1 x)
      | ok s1 b =>
        obtain ⟨k1, k2, k3⟩ := client_close h e
        have k := client_connect ha (cinv_mine k1 k2) k2 r
        have k3 := k3 hb
        simp only [Res.bind]
        exact ⟨fun s' a e => (k.1 s' a e).1, fun s' x e => (k.2 s' x e).1,
          fun _ => ⟨fun s' a e => (k.1 s' a e).2.trans k3, fun s' x e => (k.2 s' x e).2.trans k3⟩⟩
  | close =>
    simp only [Client.step]
    refine ⟨fun s' a e => (client_close h e).1, fun s' x e => absurd e (nothrow s' x), fun hc => ?_⟩
    have hb : s.isOpen = true := by simpa using hc
    exact ⟨fun s' a e => (client_close h e).2.2 hb, fun s' x e => absurd e (nothrow s' x)⟩
  | gone =>
    simp only [Client.step]
    cases hb : s.isOpen with
    | false =>
      simp only [Bool.false_eq_true, if_false, Res.ok.injEq, reduceCtorEq]
      exact ⟨fun s' a e => e.1 ▸ h, by simp, fun _ => ⟨fun s' a e => by rw [← e.1], by simp⟩⟩
    | true =>
      simp only [if_true]
      exact ⟨fun s' a e => (client_close h e).1, fun s' x e => absurd e (nothrow s' x),
        fun _ => ⟨fun s' a e => (client_close h e).2.2 hb, fun s' x e => absurd e (nothrow s' x)⟩⟩
  | other =>
    simp only [Client.step, Res.ok.injEq, reduceCtorEq]
    refine ⟨?_, by simp, by simp⟩
    rintro s' a ⟨rfl, _⟩
    exact ⟨h.1, other_own ha h.2⟩
  | otherClose n =>
    simp only [Client.step, Res.ok.injEq, reduceCtorEq]
    refine ⟨?_, by simp, by simp⟩
    rintro s' a ⟨rfl, _⟩
    refine ⟨h.1, ?_⟩
    have h2 := h.2
    revert h2
    cases s.isOpen
    · simp [Own]
    · simp only [Own, if_true]
      rintro ⟨k, h1, h2, h3⟩
      exact ⟨k, h1, h2, fun hm => h3 (List.mem_filter.1 hm).1⟩

private theorem client_new (others : List Nat) : CInv (Client.new others) := ⟨by simp [Client.new], by simp [Own, Client.new]⟩

/-- **C105**: a socket client holds one descriptor while it is open and none otherwise, after every history of calls and
failures. -/
theorem C105_client {alloc : List Nat → Nat} (ha : Fresh alloc) (others : List Nat) (ops : List COp) (s : Client)
    (obs : List (Obs Bool)) (h : runOps (Client.step alloc) (Client.new others) ops = some (s, obs)) :
    Balanced s.isOpen s.os :=
  (run_inv (Client.step alloc) CInv (fun _ => True)
    (fun s op hp _ => ⟨(client_step ha s op hp).1, (client_step ha s op hp).2.1⟩) ops _ (client_new others) (by simp) s obs
    h).2.balanced

/-- **C105** (partial): it leaves the descriptors of the rest of the program alone, if it is not closed twice. -/
theorem C105_client_partial {alloc : List Nat → Nat} (ha : Fresh alloc) (others : List Nat) (ops : List COp) (s : Client)
    (obs : List (Obs Bool)) (h : runOps (Client.step alloc) (Client.new others) ops = some (s, obs)) (op : COp)
    (ho : (∃ r, op = .open r) ∨ op = .gone ∨ (op = .close ∧ s.isOpen = true)) :
    (∀ s' a, s.step alloc op = .ok s' a → s'.os.others = s.os.others) ∧
    (∀ s' e, s.step alloc op = .throw s' e → s'.os.others = s.os.others) :=
  (client_step ha s op (run_inv (Client.step alloc) CInv (fun _ => True)
    (fun s op hp _ => ⟨(client_step ha s op hp).1, (client_step ha s op hp).2.1⟩) ops _ (client_new others) (by simp) s obs
    h)).2.2 ho

/-- The rule of POSIX is one that the theorems are about. -/
theorem lowest_fresh : Fresh lowest := by
  intro used hm
  unfold lowest at hm
  cases e : (List.range (used.length + 1)).find? fun n => !used.contains n with
  | some n =>
    rw [e, Option.getD_some] at hm
    have := List.find?_some e
    simp [hm] at this
  | none =>
    have all : ∀ n ∈ List.range (used.length + 1), n ∈ used := by
      intro n hn
      have := List.find?_eq_none.1 e n hn
      simpa using this
    have := (List.subperm_of_subset (List.nodup_range (n := used.length + 1)) all).length_le
    simp only [List.length_range] at this
    omega

example : ∃ s obs, runOps (Client.step lowest) (Client.new [0, 1, 2])
    [.open (.refused .connectionError), .open .ok, .other, .gone, .open .ok] = some (s, obs) ∧ s.isOpen = true ∧
    s.os = ⟨[3], [4, 0, 1, 2]⟩ := ⟨_, _, rfl, rfl, by decide⟩

/-- **C105** fails: after the other side hung up, the destructor of the client closes its descriptor again, which by then is
one of the rest of the program. -/
theorem C105_fails_client_stale :
    ∃ s obs, runOps (Client.step lowest) (Client.new [0, 1, 2]) [.open .ok, .gone, .other] = some (s, obs) ∧
      s.isOpen = false ∧ s.os.others = [3, 0, 1, 2] ∧
      ∃ s', s.close = .ok s' true ∧ s'.os.others = [0, 1, 2] :=
  ⟨_, _, rfl, rfl, by decide, _, rfl, by decide⟩

/-- **C105** fails: the destructor of a client or server that was never opened closes an indeterminate descriptor. -/
theorem C105_fails_unopened (others : List Nat) :
    (Client.new others).close = .ub ∧ (Server.new others).close = .ub := ⟨rfl, rfl⟩

/-! ## Socket servers -/

/-- **C105** fails: a server that could not bind to its port says that it is open. -/
theorem C105_fails_bind (alloc : List Nat → Nat) (others : List Nat) (e : Flag) :
    ∃ s, (Server.new others).step alloc (.open (.noBind e)) = .throw s e ∧ s.isOpen = true := ⟨_, rfl, rfl⟩

/-- **C105** fails: the descriptors of accepted clients are never closed: after `n` rounds of opening, accepting and closing
`n` are left. -/
theorem C105_fails_accepted {alloc : List Nat → Nat} (ha : Fresh alloc) (others : List Nat) (n : Nat) :
    ∃ s obs, runOps (Server.step alloc) (Server.new others)
      (List.replicate n [VOp.open .ok, .listen none, .close]).flatten = some (s, obs) ∧ s.isOpen = false ∧
      s.os.mine.length = n := by
  have gen : ∀ (n : Nat) (s : Server), s.isOpen = false → ∃ s' obs, runOps (Server.step alloc) s
      (List.replicate n [VOp.open .ok, .listen none, .close]).flatten = some (s', obs) ∧ s'.isOpen = false ∧
      s'.os.mine.length = s.os.mine.length + n := by
    intro n
    induction n with
    | zero => intro s hs; exact ⟨s, [], rfl, hs, rfl⟩
    | succ n ih =>
      intro s hs
      have f1 := ha s.os.used
      have f2 := ha (s.os.get alloc).used
      simp only [Os.used, List.mem_append, not_or] at f1
      simp only [Os.used, Os.get, List.mem_append, List.mem_cons, not_or, List.cons_append] at f2
      obtain ⟨s', obs, h1, h2, h3⟩ := ih
        ⟨((s.os.get alloc).get alloc).close (alloc s.os.used), some (alloc s.os.used), false⟩ rfl
      refine ⟨s', .ok true :: .ok true :: .ok true :: obs, ?_, h2, ?_⟩
      · simp only [List.replicate_succ, List.flatten_cons, List.cons_append, List.nil_append, runOps, Server.step, hs,
          Bool.false_eq_true, if_false, Server.bind, Server.close]
        rw [h1]
        rfl
      · rw [h3]
        have k1 : s.os.mine.filter (fun k : Nat => (k : Int) ≠ (alloc s.os.used : Int)) = s.os.mine := by
          rw [List.filter_eq_self]
          intro k hk
          have : k ≠ alloc s.os.used := fun e => f1.1 (by simpa [Os.used] using e ▸ hk)
          simp; omega
        have k2 : alloc (s.os.get alloc).used ≠ alloc s.os.used := by
          intro e
          exact f2.1 (by simpa [Os.used, Os.get] using e)
        have k3 : ((alloc (s.os.get alloc).used : Nat) : Int) ≠ (alloc s.os.used : Int) := by omega
        simp only [Os.close, Os.get, List.filter_cons] at k1 k3 ⊢
        simp only [ne_eq, k3, not_false_eq_true, decide_true, if_true, not_true_eq_false, decide_false,
          Bool.false_eq_true, if_false, List.length_cons]
        rw [k1]
        omega
  obtain ⟨s, obs, h1, h2, h3⟩ := gen n (Server.new others) rfl
  exact ⟨s, obs, h1, h2, by simpa [Server.new] using h3⟩

private def VInv (s : Server) : Prop := (s.isOpen = true → s.fd ≠ none) ∧ Own s.isOpen (s.fd.getD (-1)) s.os

private theorem server_bind {alloc : List Nat → Nat} (ha : Fresh alloc) {s : Server} (h : s.os.mine = [])
    (hb : s.isOpen = false) (r : Bind) :
    (∀ s' a, s.bind alloc r = .ok s' a → VInv s') ∧ (∀ s' e, s.bind alloc r = .throw s' e → VInv s') := by
  have g := get_own ha h
  cases r <;> simp only [Server.bind, Res.ok.injEq, Res.throw.injEq, reduceCtorEq, false_implies, implies_true,
    and_true, true_and] <;> rintro s' x ⟨rfl, _⟩
  · exact ⟨by simp [hb], by simp [Own, hb, h]⟩
  · exact ⟨by simp, by simpa using g⟩
  · exact ⟨by simp, by simpa using g⟩

private theorem server_close {s : Server} (h : VInv s) :
    s.close = .ub ∨ ∃ s', s.close = .ok s' true ∧ VInv s' ∧ s'.isOpen = false ∧ s'.os.mine = [] := by
  unfold Server.close
  cases hf : s.fd with
  | none => exact .inl rfl
  | some n =>
    have h2 := h.2
    rw [hf, Option.getD_some] at h2
    have k : (s.os.close n).mine = [] := by
      cases hb : s.isOpen with
      | true => rw [hb] at h2; simp [close_own h2]
      | false => rw [hb] at h2; simp only [Own, Bool.false_eq_true, if_false] at h2; simp [Os.close, h2]
    exact .inr ⟨_, rfl, ⟨by simp, by simpa [Own] using k⟩, rfl, k⟩

/-- **C105** (partial): a server holds one descriptor while it says that it is open and none otherwise, as long as no client is
accepted. -/
theorem C105_server_partial {alloc : List Nat → Nat} (ha : Fresh alloc) (others : List Nat) (ops : List VOp)
    (ho : .listen none ∉ ops) (s : Server) (obs : List (Obs Bool))
    (h : runOps (Server.step alloc) (Server.new others) ops = some (s, obs)) : Balanced s.isOpen s.os := by
  refine (run_inv (Server.step alloc) VInv (fun op => op ≠ .listen none) ?_ ops _
    ⟨by simp [Server.new], by simp [Own, Server.new]⟩ (fun op hm e => ho (e ▸ hm)) s obs h).2.balanced
  intro s op hp hop
  cases op with
  | «open» r =>
    simp only [Server.step]
    cases hb : s.isOpen with
    | false =>
      have hm : s.os.mine = [] := by have := hp.2; rw [hb] at this; simpa [Own] using this
      simpa using server_bind ha hm hb r
    | true =>
      simp only [if_true]
      rcases server_close hp with e | ⟨s1, e, _, h2, h3⟩
      · simp [e, Res.bind]
      · simp only [e, Res.bind]
        exact server_bind ha h3 h2 r
  | listen r =>
    cases r with
    | none => exact absurd rfl hop
    | some x =>
      simp only [Server.step]
      cases s.fd with
      | none => simp
      | some n => simp only [Res.throw.injEq, reduceCtorEq, false_implies, implies_true, true_and]; rintro s' e ⟨rfl, _⟩; exact hp
  | close =>
    simp only [Server.step]
    rcases server_close hp with e | ⟨s1, e, h1, _⟩
    · simp [e]
    · simp only [e, Res.ok.injEq, reduceCtorEq, false_implies, implies_true, and_true]; rintro s' a ⟨rfl, _⟩; exact h1
  | other =>
    simp only [Server.step, Res.ok.injEq, reduceCtorEq, false_implies, implies_true, and_true]
    rintro s' a ⟨rfl, _⟩
    exact ⟨hp.1, other_own ha hp.2⟩

example : ∃ s obs, runOps (Server.step lowest) (Server.new [0, 1, 2]) [.open .ok, .other, .close, .open .ok] = some (s, obs) ∧
    s.isOpen = true ∧ s.os = ⟨[3], [4, 0, 1, 2]⟩ := ⟨_, _, rfl, rfl, by decide⟩

/-! ## Serial ports -/

private def PInv (s : Port) : Prop :=
  s.isOpen ≠ none ∧ (s.isOpen = some true → ∃ n : Nat, s.fd = n ∧ n ∈ s.os.mine) ∧
    (∀ n ∈ s.os.mine, n ∉ s.os.others)

private theorem port_close {s : Port} (h : PInv s) :
    ∃ s', s.close = .ok s' true ∧ PInv s' ∧ s'.isOpen = some false ∧ s'.os.others = s.os.others := by
  obtain ⟨h1, h2, h3⟩ := h
  unfold Port.close
  cases hb : s.isOpen with
  | none => exact absurd hb h1
  | some b =>
    cases b with
    | false => exact ⟨s, rfl, ⟨h1, h2, h3⟩, hb, rfl⟩
    | true =>
      obtain ⟨n, e, hn⟩ := h2 hb
      have k : s.os.others.filter (fun k : Nat => (k : Int) ≠ s.fd) = s.os.others := by
        rw [List.filter_eq_self]
        intro k hk
        have : k ≠ n := fun e => h3 n hn (e ▸ hk)
        simp; omega
      refine ⟨_, rfl, ⟨by simp, by simp, ?_⟩, rfl, k⟩
      intro m hm hm2
      exact h3 m (List.mem_filter.1 hm).1 (List.mem_filter.1 hm2).1

private theorem port_query {s : Port} (h : PInv s) (p : Bool) :
    ∃ s' b, s.query p = .ok s' b ∧ PInv s' ∧ s'.isOpen = some b ∧ s'.os.others = s.os.others := by
  unfold Port.query
  cases hb : s.isOpen with
  | none => exact absurd hb h.1
  | some b =>
    cases b with
    | false => exact ⟨s, false, rfl, h, hb, rfl⟩
    | true =>
      cases p with
      | true => exact ⟨s, true, rfl, h, hb, rfl⟩
      | false =>
        obtain ⟨s', e, h1, h2, h3⟩ := port_close h
        exact ⟨s', false, by simp [e, Res.bind], h1, h2, h3⟩

private theorem port_setUp {alloc : List Nat → Nat} (ha : Fresh alloc) {s : Port} (h : PInv s) (hb : s.isOpen = some false)
    (r : SOpen) :
    (∀ s' a, s.setUp alloc r = .ok s' a → PInv s' ∧ s'.os.others = s.os.others) ∧
    (∀ s' e, s.setUp alloc r = .throw s' e → PInv s' ∧ s'.os.others = s.os.others) := by
  have f := ha s.os.used
  simp only [Os.used, List.mem_append, not_or] at f
  have d : ∀ n ∈ (s.os.get alloc).mine, n ∉ (s.os.get alloc).others := by
    intro n hn
    simp only [Os.get, List.mem_cons] at hn ⊢
    rcases hn with rfl | hn
    · exact f.2
    · exact h.2.2 n hn
  have good : (∀ s' a, s.setUp alloc .ok = .ok s' a → PInv s' ∧ s'.os.others = s.os.others) ∧
      (∀ s' e, s.setUp alloc .ok = .throw s' e → PInv s' ∧ s'.os.others = s.os.others) := by
    simp only [Port.setUp]
    cases s.timed
    · simp
    · simp only [if_true, Res.ok.injEq, reduceCtorEq, false_implies, implies_true, and_true]
      rintro s' x ⟨rfl, _⟩
      exact ⟨⟨by simp, fun _ => ⟨_, rfl, by simp [Os.get]⟩, d⟩, rfl⟩
  cases r
  case ok => exact good
  case badStop => exact good
  all_goals simp only [Port.setUp, Res.ok.injEq, Res.throw.injEq, reduceCtorEq, false_implies, implies_true,
    and_true, true_and]
  all_goals rintro s' x ⟨rfl, _⟩
  case noPort => exact ⟨⟨h.1, by simp [hb], h.2.2⟩, rfl⟩
  all_goals exact ⟨⟨h.1, by simp [hb], d⟩, rfl⟩

private theorem port_step {alloc : List Nat → Nat} (ha : Fresh alloc) (s : Port) (op : SOp) (h : PInv s) :
    (∀ s' a, s.step alloc op = .ok s' a → PInv s' ∧ (op ≠ .other → s'.os.others = s.os.others)) ∧
    (∀ s' e, s.step alloc op = .throw s' e → PInv s' ∧ (op ≠ .other → s'.os.others = s.os.others)) := by
  cases op with
  | «open» p r =>
    simp only [Port.step, Port.open]
    by_cases hr : r = .badStop
    · simp only [hr, if_true, Res.throw.injEq, reduceCtorEq, false_implies, implies_true, true_and]
      rintro s' e ⟨rfl, _⟩
      exact ⟨h, fun _ => rfl⟩
    · obtain ⟨s1, b, e1, h1, h2, h3⟩ := port_query h p
      simp only [hr, if_false, e1, Res.bind]
      cases b with
      | false =>
        have k := port_setUp ha h1 h2 r
        simp only [Bool.false_eq_true, if_false]
        exact ⟨fun s' a e => ⟨(k.1 s' a e).1, fun _ => (k.1 s' a e).2.trans h3⟩,
          fun s' x e => ⟨(k.2 s' x e).1, fun _ => (k.2 s' x e).2.trans h3⟩⟩
      | true =>
        obtain ⟨s2, e2, h4, h5, h6⟩ := port_close h1
        have k := port_setUp ha h4 h5 r
        simp only [if_true, e2]
        exact ⟨fun s' a e => ⟨(k.1 s' a e).1, fun _ => ((k.1 s' a e).2.trans h6).trans h3⟩,
          fun s' x e => ⟨(k.2 s' x e).1, fun _ => ((k.2 s' x e).2.trans h6).trans h3⟩⟩
  | close =>
    obtain ⟨s1, e1, h1, _, h3⟩ := port_close h
    simp only [Port.step, e1, Res.ok.injEq, reduceCtorEq, false_implies, implies_true, and_true]
    rintro s' a ⟨rfl, _⟩
    exact ⟨h1, fun _ => h3⟩
  | query p =>
    obtain ⟨s1, b, e1, h1, _, h3⟩ := port_query h p
    simp only [Port.step, e1, Res.ok.injEq, reduceCtorEq, false_implies, implies_true, and_true]
    rintro s' a ⟨rfl, _⟩
    exact ⟨h1, fun _ => h3⟩
  | other =>
    simp only [Port.step, Res.ok.injEq, reduceCtorEq, false_implies, implies_true, and_true]
    rintro s' a ⟨rfl, _⟩
    refine ⟨⟨h.1, h.2.1, fun n hn => ?_⟩, by simp⟩
    have f := ha s.os.used
    simp only [Os.used, List.mem_append, not_or] at f
    simp only [List.mem_cons, not_or]
    exact ⟨fun e => f.1 (by simpa [Os.used] using e ▸ hn), h.2.2 n hn⟩

/-- **C105**: a serial port never closes a descriptor of the rest of the program, whatever is called in whatever order and
fails. -/
theorem C105_serial {alloc : List Nat → Nat} (ha : Fresh alloc) (stat : Bool) (others : List Nat) (ops : List SOp) (s : Port)
    (obs : List (Obs Bool)) (h : runOps (Port.step alloc) (Port.new stat others) ops = some (s, obs)) (op : SOp) (ho : op ≠ .other) :
    (∀ s' a, s.step alloc op = .ok s' a → s'.os.others = s.os.others) ∧
    (∀ s' e, s.step alloc op = .throw s' e → s'.os.others = s.os.others) := by
  have k := port_step ha s op (run_inv (Port.step alloc) PInv (fun _ => True)
    (fun s op hp _ => ⟨fun s' a e => ((port_step ha s op hp).1 s' a e).1, fun s' x e => ((port_step ha s op hp).2 s' x e).1⟩)
    ops _ ⟨by simp [Port.new], by simp [Port.new], by simp [Port.new]⟩ (by simp) s obs h)
  exact ⟨fun s' a e => (k.1 s' a e).2 ho, fun s' x e => (k.2 s' x e).2 ho⟩

private def QInv (s : Port) : Prop := ∃ b, s.isOpen = some b ∧ Own b s.fd s.os

private theorem qport_close {s : Port} (h : QInv s) :
    ∃ s', s.close = .ok s' true ∧ QInv s' ∧ s'.isOpen = some false ∧ s'.os.mine = [] := by
  obtain ⟨b, hb, h⟩ := h
  unfold Port.close
  cases b with
  | false =>
    rw [hb]
    exact ⟨s, rfl, ⟨false, hb, h⟩, hb, by simpa [Own] using h⟩
  | true =>
    rw [hb]
    have k := close_own h
    exact ⟨_, rfl, ⟨false, rfl, by simp [Own, k]⟩, rfl, by simp [k]⟩

/-- **C105** (partial): a serial port holds one descriptor while it is open and none otherwise, if opening fails only because
of the stop bits or because there is no such port. -/
theorem C105_serial_partial {alloc : List Nat → Nat} (ha : Fresh alloc) (stat : Bool) (others : List Nat) (ops : List SOp)
    (ho : ∀ p, .open p .badBaud ∉ ops ∧ .open p .locked ∉ ops ∧ .open p .noSpeed ∉ ops) :
    ∀ (s : Port) (obs : List (Obs Bool)), runOps (Port.step alloc) (Port.new stat others) ops = some (s, obs) →
      ∃ b, s.isOpen = some b ∧ Balanced b s.os := by
  intro s obs h
  have := run_inv (Port.step alloc) QInv
    (fun op => ∀ p, op ≠ .open p .badBaud ∧ op ≠ .open p .locked ∧ op ≠ .open p .noSpeed) ?_ ops _
    ⟨false, rfl, by simp [Own, Port.new]⟩
    (fun op hm p => ⟨fun e => (ho p).1 (e ▸ hm), fun e => (ho p).2.1 (e ▸ hm), fun e => (ho p).2.2 (e ▸ hm)⟩) s obs h
  · obtain ⟨b, h1, h2⟩ := this
    exact ⟨b, h1, h2.balanced⟩
  have query : ∀ (s : Port) (p : Bool), QInv s → ∃ s' b, s.query p = .ok s' b ∧ QInv s' ∧ s'.isOpen = some b := by
    intro s p h
    obtain ⟨b, hb, hh⟩ := id h
    unfold Port.query
    cases b with
    | false => rw [hb]; exact ⟨s, false, rfl, h, hb⟩
    | true =>
      rw [hb]
      cases p with
      | true => exact ⟨s, true, rfl, h, hb⟩
      | false =>
        obtain ⟨s', e, h1, h2, _⟩ := qport_close h
        exact ⟨s', false, by simp [e, Res.bind], h1, h2⟩
  intro s op hp hop
  cases op with
  | «open» p r =>
    have setUp : ∀ s : Port, s.isOpen = some false → s.os.mine = [] →
        (∀ s' a, s.setUp alloc r = .ok s' a → QInv s') ∧ (∀ s' e, s.setUp alloc r = .throw s' e → QInv s') := by
      intro s hb hm
      have g := get_own ha hm
      cases r with
      | badBaud => exact absurd rfl (hop p).1
      | locked => exact absurd rfl (hop p).2.1
      | noSpeed => exact absurd rfl (hop p).2.2
      | noPort e =>
        simp only [Port.setUp, Res.throw.injEq, reduceCtorEq, false_implies, implies_true, true_and]
        rintro s' x ⟨rfl, _⟩
        exact ⟨false, hb, by simpa [Own] using hm⟩
      | badStop =>
        simp only [Port.setUp]
        cases s.timed
        · simp
        · simp only [if_true, Res.ok.injEq, reduceCtorEq, false_implies, implies_true, and_true]
          rintro s' x ⟨rfl, _⟩
          exact ⟨true, rfl, g⟩
      | ok =>
        simp only [Port.setUp]
        cases s.timed
        · simp
        · simp only [if_true, Res.ok.injEq, reduceCtorEq, false_implies, implies_true, and_true]
          rintro s' x ⟨rfl, _⟩
          exact ⟨true, rfl, g⟩
    simp only [Port.step, Port.open]
    by_cases hr : r = .badStop
    · simp only [hr, if_true, Res.throw.injEq, reduceCtorEq, false_implies, implies_true, true_and]
      rintro s' e ⟨rfl, _⟩
      exact hp
    · obtain ⟨s1, b, e1, h1, h2⟩ := query s p hp
      simp only [hr, if_false, e1, Res.bind]
      cases b with
      | false =>
        obtain ⟨b, hb, hh⟩ := h1
        rw [h2] at hb
        cases hb
        simpa using setUp s1 h2 (by simpa [Own] using hh)
      | true =>
        obtain ⟨s2, e2, _, h4, h5⟩ := qport_close h1
        simp only [if_true, e2]
        exact setUp s2 h4 h5
  | close =>
    obtain ⟨s1, e1, h1, _⟩ := qport_close hp
    simp only [Port.step, e1, Res.ok.injEq, reduceCtorEq, false_implies, implies_true, and_true]
    rintro s' a ⟨rfl, _⟩
    exact h1
  | query p =>
    obtain ⟨s1, b, e1, h1, _⟩ := query s p hp
    simp only [Port.step, e1, Res.ok.injEq, reduceCtorEq, false_implies, implies_true, and_true]
    rintro s' a ⟨rfl, _⟩
    exact h1
  | other =>
    simp only [Port.step, Res.ok.injEq, reduceCtorEq, false_implies, implies_true, and_true]
    rintro s' a ⟨rfl, _⟩
    obtain ⟨b, h1, h2⟩ := hp
    exact ⟨b, h1, other_own ha h2⟩

example : ∃ s obs, runOps (Port.step lowest) (Port.new true [0, 1, 2])
    [.open true (.noPort .openError), .open true .ok, .other, .query false, .open true .ok] = some (s, obs) ∧
    s.isOpen = some true ∧ s.os = ⟨[3], [4, 0, 1, 2]⟩ := ⟨_, _, rfl, rfl, by decide⟩

/-- **C105** fails: every attempt to open a serial port that another process has locked leaves a descriptor behind. -/
theorem C105_fails_locked (alloc : List Nat → Nat) (stat : Bool) (others : List Nat) (p : Bool) (n : Nat) :
    ∃ s obs, runOps (Port.step alloc) (Port.new stat others) (List.replicate n (.open p .locked)) = some (s, obs) ∧
      s.isOpen = some false ∧ s.os.mine.length = n := by
  have gen : ∀ (n : Nat) (s : Port), s.isOpen = some false → ∃ s' obs, runOps (Port.step alloc) s
      (List.replicate n (.open p .locked)) = some (s', obs) ∧ s'.isOpen = some false ∧
      s'.os.mine.length = s.os.mine.length + n := by
    intro n
    induction n with
    | zero => intro s hs; exact ⟨s, [], rfl, hs, rfl⟩
    | succ n ih =>
      intro s hs
      obtain ⟨s', obs, h1, h2, h3⟩ := ih { s with os := s.os.get alloc, fd := alloc s.os.used } hs
      refine ⟨s', .error .openError :: obs, ?_, h2, ?_⟩
      · simp only [List.replicate_succ, runOps, Port.step, Port.open, reduceCtorEq, if_false, Port.query, hs, Res.bind,
          Bool.false_eq_true, Port.setUp]
        rw [hs] at h1
        rw [h1]
        rfl
      · rw [h3]
        simp only [Os.get, List.length_cons]
        omega
  obtain ⟨s, obs, h1, h2, h3⟩ := gen n (Port.new stat others) rfl
  exact ⟨s, obs, h1, h2, by simpa [Port.new] using h3⟩

/-- **C105** fails: unless its memory happens to be zero before, opening a serial port looks at a member that has no value yet:
the constructor that opens the port at whether it is open, opening it later at the time limit. -/
theorem C105_fails_serial_indeterminate (alloc : List Nat → Nat) (others : List Nat) (p : Bool) :
    (∀ r, r ≠ .badStop → (Port.raw false others).open alloc p r = .ub) ∧
    (Port.new false others).open alloc p .ok = .ub := by
  refine ⟨fun r h => ?_, by simp [Port.open, Port.query, Port.new, Res.bind, Port.setUp]⟩
  simp [Port.open, h, Port.query, Port.raw, Res.bind]

/-! ## Files -/

private def FInv (s : File) : Prop :=
  match s.file with
  | .null => s.os.mine = []
  | .over n => s.os.mine = [n] ∧ n ∉ s.os.others
  | .stale => False

/-- **C105** (partial): a file holds one descriptor while it is open and none otherwise, and no call is undefined, if it is
opened only when closed, and `fdopen` and `fclose` succeed. -/
theorem C105_file_partial {alloc : List Nat → Nat} (ha : Fresh alloc) (others : List Nat) (ops : List FOp)
    (hu : FileUse alloc (File.new others) ops) :
    ∃ s obs, runOps (File.step alloc) (File.new others) ops = some (s, obs) ∧ Balanced s.isOpen s.os := by
  have gen : ∀ (ops : List FOp) (s : File), FInv s → FileUse alloc s ops →
      ∃ s' obs, runOps (File.step alloc) s ops = some (s', obs) ∧ FInv s' := by
    intro ops
    induction ops with
    | nil => intro s h _; exact ⟨s, [], rfl, h⟩
    | cons op ops ih =>
      intro s h hu
      obtain ⟨ho, hu⟩ := hu
      have key : (∃ s' a, s.step alloc op = .ok s' a ∧ FInv s') ∨ (∃ s' e, s.step alloc op = .throw s' e ∧ FInv s') := by
        cases op with
        | «open» r =>
          cases r with
          | noStream e => exact absurd ho id
          | noFile e => exact .inr ⟨_, _, rfl, h⟩
          | ok =>
            have hn : s.file = .null := by simpa [File.isOpen] using ho
            have hm : s.os.mine = [] := by simpa [FInv, hn] using h
            have g := ha s.os.used
            refine .inl ⟨_, _, rfl, ?_⟩
            simp only [FInv, Os.get, hm, true_and]
            simpa [Os.used, hm] using g
        | close r =>
          have ho : r = none := ho
          subst ho
          cases hf : s.file with
          | null => exact .inl ⟨s, true, by simp [File.step, File.close, hf], h⟩
          | stale => simp [FInv, hf] at h
          | over n =>
            have hm : s.os.mine = [n] := by simp only [FInv, hf] at h; exact h.1
            exact .inl ⟨_, true, by simp only [File.step, File.close, hf]; rfl, by simp [FInv, Os.close, hm]⟩
        | other =>
          refine .inl ⟨_, _, rfl, ?_⟩
          have g := ha s.os.used
          revert h
          simp only [FInv]
          cases hf : s.file with
          | null => exact id
          | stale => exact id
          | over n =>
            rintro ⟨h1, h2⟩
            refine ⟨h1, ?_⟩
            simp only [List.mem_cons, not_or]
            refine ⟨fun e => g ?_, h2⟩
            rw [← e]; simp [Os.used, h1]
      rcases key with ⟨s', a, e, hi⟩ | ⟨s', x, e, hi⟩
      · rw [e] at hu
        obtain ⟨t, obs, h1, h2⟩ := ih s' hi hu
        exact ⟨t, .ok a :: obs, by simp [runOps, e, h1], h2⟩
      · rw [e] at hu
        obtain ⟨t, obs, h1, h2⟩ := ih s' hi hu
        exact ⟨t, .error x :: obs, by simp [runOps, e, h1], h2⟩
  obtain ⟨s, obs, h1, h2⟩ := gen ops (File.new others) rfl hu
  refine ⟨s, obs, h1, ?_⟩
  obtain ⟨os, f⟩ := s
  cases f with
  | null => have h2 : os.mine = [] := h2; simp [Balanced, File.isOpen, h2]
  | stale => exact absurd h2 id
  | over n => have h2 : os.mine = [n] := h2.1; simp [Balanced, File.isOpen, h2]

example : FileUse lowest (File.new [0, 1, 2]) [.open (.noFile .openError), .open .ok, .other, .close none, .open .ok] := by
  simp [FileUse, File.step, File.new, File.isOpen, File.close]

/-- **C105** fails: opening a file that is open leaves the first descriptor behind, even after closing. -/
theorem C105_fails_reopen :
    ∃ s obs, runOps (File.step lowest) (File.new [0, 1, 2]) [.open .ok, .open .ok, .close none] = some (s, obs) ∧
      s.isOpen = false ∧ s.os.mine = [3] := ⟨_, _, rfl, by decide, by decide⟩

/-- **C105** fails: a file that could not be opened says that it is open, if it was before. -/
theorem C105_fails_file_open (alloc : List Nat → Nat) (s : File) (h : s.isOpen = true) (e : Flag) :
    ∃ s', s.step alloc (.open (.noFile e)) = .throw s' e ∧ s'.isOpen = true := ⟨s, rfl, h⟩

/-- **C105** fails: when closing a file fails, for example because the disk is full, the file says that it is
open, and closing it again or destroying it is undefined. -/
theorem C105_fails_close (s : File) (n : Nat) (h : s.file = .over n) (e : Flag) (r : Option Flag) :
    ∃ s', s.close (some e) = .throw s' e ∧ s'.isOpen = true ∧ s'.close r = .ub ∧ s'.destroy = .ub := by
  refine ⟨⟨s.os.close n, .stale⟩, ?_, rfl, rfl, rfl⟩
  simp [File.close, h]

end Ecl.Props
