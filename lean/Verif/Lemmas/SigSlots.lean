import Verif.Spec.Wiring
import Mathlib.Data.List.Basic
import Mathlib.Data.List.Nodup
import Mathlib.Data.List.Perm.Subperm
import Mathlib.Tactic.Tauto

/-! Helper lemmas about signals and slots. -/
set_option autoImplicit false
set_option linter.unusedSimpArgs false

namespace Ecl.SigSlots
open Ecl.Spec

theorem mem_insertSet {α : Type} [DecidableEq α] (x y : α) (l : List α) :
    y ∈ insertSet x l ↔ y ∈ l ∨ y = x := by
  unfold insertSet
  by_cases h : x ∈ l
  · simp only [h, if_true]
    constructor
    · exact .inl
    · rintro (h' | rfl)
      · exact h'
      · exact h
  · simp [h]

theorem nodup_insertSet {α : Type} [DecidableEq α] (x : α) (l : List α) (h : l.Nodup) :
    (insertSet x l).Nodup := by
  unfold insertSet
  by_cases hx : x ∈ l
  · simpa [hx] using h
  · simp only [hx, if_false]
    refine List.Nodup.append h (by simp) ?_
    intro y hy hy'
    simp at hy'; subst hy'
    exact hx hy

theorem handle_iff (h e : Nat) (hs : List (Nat × Nat)) (hn : (hs.map Prod.fst).Nodup) :
    handle h hs = some e ↔ (h, e) ∈ hs := by
  induction hs with
  | nil => simp [handle]
  | cons p hs ih =>
    obtain ⟨k, f⟩ := p
    simp only [List.map_cons, List.nodup_cons] at hn
    by_cases hk : k = h
    · subst hk
      simp only [handle, if_true, Option.some.injEq, List.mem_cons, Prod.mk.injEq, true_and]
      constructor
      · intro hf; exact .inl hf.symm
      · rintro (hf | hm)
        · exact hf.symm
        · exact absurd (List.mem_map_of_mem (f := Prod.fst) hm) hn.1
    · simp only [handle, if_neg hk, ih hn.2, List.mem_cons, Prod.mk.injEq]
      constructor
      · exact .inr
      · rintro (⟨rfl, _⟩ | hm)
        · exact absurd rfl hk
        · exact hm

theorem at_unique {g : Wiring} {h e f : Nat} (hn : (g.handles.map Prod.fst).Nodup)
    (h1 : g.At h e) (h2 : g.At h f) : e = f := by
  have a := (handle_iff h e _ hn).2 h1
  have b := (handle_iff h f _ hn).2 h2
  rw [a] at b
  exact Option.some.inj b

/-- What `disconnectTopic` leaves of a topic. -/
def rem (e : Nat) (T : Topic) : Option Topic :=
  if (T.disconnect e).empty then none else some (T.disconnect e)

theorem disconnectList_ok (e : Nat) : ∀ (ts : List String) (w : World), ts.Nodup →
    (∀ t ∈ ts, (w.topics t).isSome = true) →
    disconnectList e w ts =
      .ok { w with topics := fun t => if t ∈ ts then (w.topics t).bind (rem e) else w.topics t } := by
  intro ts
  induction ts with
  | nil => intro w _ _; simp [disconnectList]
  | cons t ts ih =>
    intro w hn hs
    simp only [List.nodup_cons] at hn
    obtain ⟨T, hT⟩ := Option.isSome_iff_exists.1 (hs t (by simp))
    unfold disconnectList disconnectTopic
    rw [hT]
    simp only [Outcome.bind_ok]
    rw [ih _ hn.2]
    · congr 1
      simp only [World.mk.injEq, true_and, and_true]
      funext u
      by_cases hu : u = t
      · subst hu
        simp [hn.1, upd, hT, rem]
      · simp [hu, upd]
    · intro u hu
      have : u ≠ t := by rintro rfl; exact hn.1 hu
      simp only [upd, this, if_false]
      exact hs u (by simp [hu])

theorem rem_some (e : Nat) (T : Topic) (h : ∃ x, x ≠ e ∧ (x ∈ T.pubs ∨ x ∈ T.subs)) :
    rem e T = some (T.disconnect e) := by
  unfold rem
  rw [if_neg]
  obtain ⟨x, hx, h⟩ := h
  simp only [Topic.empty, Topic.disconnect, Bool.and_eq_true, decide_eq_true_eq,
    List.length_eq_zero_iff]
  rintro ⟨h1, h2⟩
  rcases h with h | h
  · have := (List.mem_erase_of_ne hx).2 h; rw [h1] at this; cases this
  · have := (List.mem_erase_of_ne hx).2 h; rw [h2] at this; cases this

theorem rem_none (e : Nat) (T : Topic) (hp : T.pubs.Nodup) (hs : T.subs.Nodup)
    (h : ∀ x, x ∈ T.pubs ∨ x ∈ T.subs → x = e) : rem e T = none := by
  unfold rem
  rw [if_pos]
  simp only [Topic.empty, Topic.disconnect, Bool.and_eq_true, decide_eq_true_eq,
    List.length_eq_zero_iff]
  constructor
  · rw [List.eq_nil_iff_forall_not_mem]
    intro x hx
    have := (hp.mem_erase_iff).1 hx
    exact this.1 (h x (.inl this.2))
  · rw [List.eq_nil_iff_forall_not_mem]
    intro x hx
    have := (hs.mem_erase_iff).1 hx
    exact this.1 (h x (.inr this.2))

theorem rem_rem (e : Nat) (T : Topic) (hp : T.pubs.Nodup) (hs : T.subs.Nodup)
    (h : ∃ x, x ≠ e ∧ (x ∈ T.pubs ∨ x ∈ T.subs)) :
    ((rem e T).bind (rem e)) = rem e T := by
  rw [rem_some e T h]
  simp only [Option.bind_some]
  have h1 : (T.disconnect e).disconnect e = T.disconnect e := by
    unfold Topic.disconnect
    simp only [Topic.mk.injEq, true_and]
    exact ⟨List.erase_of_not_mem (fun h => ((hp.mem_erase_iff).1 h).1 rfl),
      List.erase_of_not_mem (fun h => ((hs.mem_erase_iff).1 h).1 rfl)⟩
  have h2 := rem_some e T h
  unfold rem at h2 ⊢
  rw [h1]
  by_cases he : (T.disconnect e).empty = true
  · rw [if_pos he] at h2; cases h2
  · rw [if_neg he]

/-- `SigSlot::disconnect` on an endpoint that is not lonely. -/
theorem disconnect_ok (w : World) (e : Nat) (E : Endpoint) (hE : w.eps e = some E)
    (hsn : E.subscriptions.Nodup) (hpn : (E.publications.map Prod.fst).Nodup)
    (hs : ∀ t ∈ E.subscriptions, (w.topics t).isSome = true)
    (hp : ∀ t ∈ E.publications.map Prod.fst, (w.topics t).isSome = true)
    (hT : ∀ t T, w.topics t = some T → T.pubs.Nodup ∧ T.subs.Nodup)
    (hl : ∀ t T, w.topics t = some T → t ∈ E.subscriptions → t ∈ E.publications.map Prod.fst →
      ∃ x, x ≠ e ∧ (x ∈ T.pubs ∨ x ∈ T.subs)) :
    disconnect w e = .ok { w with
      topics := fun t => if t ∈ E.subscriptions ∨ t ∈ E.publications.map Prod.fst
        then (w.topics t).bind (rem e) else w.topics t
      eps := upd w.eps e (some { E with subscriptions := [], publications := [] }) } := by
  unfold disconnect
  rw [hE]
  simp only
  rw [disconnectList_ok e _ w hsn hs, Outcome.bind_ok, disconnectList_ok e _ _ hpn, Outcome.bind_ok]
  · congr 1
    simp only [World.mk.injEq, true_and, and_true]
    funext t
    by_cases h1 : t ∈ E.subscriptions <;> by_cases h2 : t ∈ E.publications.map Prod.fst
    · simp only [h1, h2, if_true, or_self]
      obtain ⟨T, hT'⟩ := Option.isSome_iff_exists.1 (hs t h1)
      rw [hT']
      simp only [Option.bind_some]
      exact rem_rem e T (hT t T hT').1 (hT t T hT').2 (hl t T hT' h1 h2)
    · simp only [h1, h2, if_true, if_false, or_false]
    · simp only [h1, h2, if_true, if_false, false_or]
    · simp only [h1, h2, if_false, or_self]
  · intro t h2
    by_cases h1 : t ∈ E.subscriptions
    · simp only [h1, if_true]
      obtain ⟨T, hT'⟩ := Option.isSome_iff_exists.1 (hs t h1)
      rw [hT']
      simp only [Option.bind_some]
      rw [rem_some e T (hl t T hT' h1 h2)]
      rfl
    · simp only [h1, if_false]
      exact hp t h2

/-- `SigSlot::disconnect` on a lonely endpoint. -/
theorem disconnect_ub (w : World) (e : Nat) (E : Endpoint) (hE : w.eps e = some E)
    (hsn : E.subscriptions.Nodup) (hpn : (E.publications.map Prod.fst).Nodup)
    (hs : ∀ t ∈ E.subscriptions, (w.topics t).isSome = true)
    (t : String) (T : Topic) (hT : w.topics t = some T) (hp' : T.pubs.Nodup) (hs' : T.subs.Nodup)
    (h1 : t ∈ E.subscriptions) (h2 : t ∈ E.publications.map Prod.fst)
    (hl : ∀ x, x ∈ T.pubs ∨ x ∈ T.subs → x = e) : disconnect w e = .ub := by
  have hub : ∀ (ts : List String) (w : World), ts.Nodup → t ∈ ts → w.topics t = none →
      disconnectList e w ts = .ub := by
    intro ts
    induction ts with
    | nil => intro w _ h; cases h
    | cons u ts ih =>
      intro w hn h hw
      simp only [List.nodup_cons] at hn
      unfold disconnectList disconnectTopic
      by_cases hu : u = t
      · subst hu; rw [hw]; rfl
      · cases hw' : w.topics u with
        | none => rfl
        | some U =>
          simp only [Outcome.bind_ok]
          refine ih _ hn.2 (by simpa [Ne.symm hu] using h) ?_
          simp [upd, Ne.symm hu, hw]
  unfold disconnect
  rw [hE]
  simp only
  rw [disconnectList_ok e _ w hsn hs, Outcome.bind_ok, hub _ _ hpn h2]
  · rfl
  · simp only [h1, if_true, hT, Option.bind_some]
    exact rem_none e T hp' hs' hl

/-- The wiring describes the world. -/
structure Rel (w : World) (g : Wiring) : Prop where
  handles : w.handles = g.handles
  keys : (g.handles.map Prod.fst).Nodup
  created : w.nextEp = g.created
  bound : ∀ p ∈ g.handles, p.2 < g.created
  ep : ∀ e E, w.eps e = some E → E.relay = g.signal e ∧
    E.handles = g.handles.countP (fun p => p.2 = e) ∧
    E.subscriptions.Nodup ∧ (∀ t, t ∈ E.subscriptions ↔ g.sub e t) ∧
    (E.publications.map Prod.fst).Nodup ∧ (∀ t, t ∈ E.publications.map Prod.fst ↔ g.pub e t) ∧
    ∀ p ∈ E.publications, ∃ T, w.topics p.1 = some T ∧ T.uid = p.2
  alive : ∀ e, (w.eps e).isSome = true ↔ g.Alive e
  dead : ∀ e, ¬ g.Alive e → ∀ t, ¬ g.pub e t ∧ ¬ g.sub e t
  topic : ∀ t T, w.topics t = some T → T.pubs.Nodup ∧ T.subs.Nodup ∧
    (∀ x, x ∈ T.pubs ↔ g.pub x t) ∧ (∀ x, x ∈ T.subs ↔ g.sub x t) ∧ (T.pubs ≠ [] ∨ T.subs ≠ [])
  noTopic : ∀ t, w.topics t = none → ∀ x, ¬ g.pub x t ∧ ¬ g.sub x t
  deleted : w.deleted.Nodup ∧ ∀ e, e ∈ w.deleted ↔ e < g.created ∧ ¬ g.Alive e

theorem Rel.empty : Rel World.empty Wiring.empty := by
  constructor <;> simp [World.empty, Wiring.empty, Wiring.Alive, Wiring.At]

variable {w : World} {g : Wiring}

theorem Rel.at_handle (hR : Rel w g) {h e : Nat} (hat : g.At h e) :
    handle h w.handles = some e ∧ ∃ E, w.eps e = some E := by
  refine ⟨?_, Option.isSome_iff_exists.1 ((hR.alive e).2 ⟨h, hat⟩)⟩
  rw [hR.handles]
  exact (handle_iff h e _ hR.keys).2 hat

theorem Rel.sub_topic (hR : Rel w g) {e : Nat} {t : String} (h : g.sub e t) :
    ∃ T, w.topics t = some T := by
  cases hT : w.topics t with
  | none => exact absurd h (hR.noTopic t hT e).2
  | some T => exact ⟨T, rfl⟩

theorem Rel.pub_topic (hR : Rel w g) {e : Nat} {t : String} (h : g.pub e t) :
    ∃ T, w.topics t = some T := by
  cases hT : w.topics t with
  | none => exact absurd h (hR.noTopic t hT e).1
  | some T => exact ⟨T, rfl⟩

/-- The topics after a disconnect describe the wiring without the endpoint. -/
theorem topics_cut (hR : Rel w g) (e : Nat) (E : Endpoint) (hE : w.eps e = some E) :
    (∀ t T, (if t ∈ E.subscriptions ∨ t ∈ E.publications.map Prod.fst
        then (w.topics t).bind (rem e) else w.topics t) = some T →
      T.pubs.Nodup ∧ T.subs.Nodup ∧ (∀ x, x ∈ T.pubs ↔ g.pub x t ∧ ¬ x = e) ∧
        (∀ x, x ∈ T.subs ↔ g.sub x t ∧ ¬ x = e) ∧ (T.pubs ≠ [] ∨ T.subs ≠ []) ∧
        ∃ T', w.topics t = some T' ∧ T.uid = T'.uid) ∧
    (∀ t, (if t ∈ E.subscriptions ∨ t ∈ E.publications.map Prod.fst
        then (w.topics t).bind (rem e) else w.topics t) = none →
      ∀ x, ¬ (g.pub x t ∧ ¬ x = e) ∧ ¬ (g.sub x t ∧ ¬ x = e)) := by
  obtain ⟨-, -, -, hsub, -, hpub, -⟩ := hR.ep e E hE
  constructor
  · intro t T hT
    by_cases hin : t ∈ E.subscriptions ∨ t ∈ E.publications.map Prod.fst
    · rw [if_pos hin] at hT
      cases ht : w.topics t with
      | none => rw [ht] at hT; cases hT
      | some T0 =>
        rw [ht] at hT
        simp only [Option.bind_some] at hT
        obtain ⟨h1, h2, h3, h4, h5⟩ := hR.topic t T0 ht
        unfold rem at hT
        by_cases hem : (T0.disconnect e).empty = true
        · rw [if_pos hem] at hT; cases hT
        · rw [if_neg hem] at hT
          obtain rfl := Option.some.inj hT
          refine ⟨h1.erase e, h2.erase e, ?_, ?_, ?_, T0, rfl, rfl⟩
          · intro x
            simp only [Topic.disconnect, h1.mem_erase_iff, h3]
            tauto
          · intro x
            simp only [Topic.disconnect, h2.mem_erase_iff, h4]
            tauto
          · simp only [Topic.empty, Bool.and_eq_true, decide_eq_true_eq,
              List.length_eq_zero_iff] at hem
            tauto
    · rw [if_neg hin] at hT
      obtain ⟨h1, h2, h3, h4, h5⟩ := hR.topic t T hT
      rw [not_or, hsub, hpub] at hin
      refine ⟨h1, h2, ?_, ?_, h5, T, hT, rfl⟩
      · intro x; rw [h3]
        constructor
        · intro hx; exact ⟨hx, by rintro rfl; exact hin.2 hx⟩
        · exact fun hx => hx.1
      · intro x; rw [h4]
        constructor
        · intro hx; exact ⟨hx, by rintro rfl; exact hin.1 hx⟩
        · exact fun hx => hx.1
  · intro t hT x
    by_cases hin : t ∈ E.subscriptions ∨ t ∈ E.publications.map Prod.fst
    · rw [if_pos hin] at hT
      cases ht : w.topics t with
      | none => exact ⟨fun h => (hR.noTopic t ht x).1 h.1, fun h => (hR.noTopic t ht x).2 h.1⟩
      | some T0 =>
        rw [ht] at hT
        simp only [Option.bind_some] at hT
        obtain ⟨h1, h2, h3, h4, h5⟩ := hR.topic t T0 ht
        refine ⟨fun h => ?_, fun h => ?_⟩
        · rw [rem_some e T0 ⟨x, h.2, .inl ((h3 x).2 h.1)⟩] at hT; cases hT
        · rw [rem_some e T0 ⟨x, h.2, .inr ((h4 x).2 h.1)⟩] at hT; cases hT
    · rw [if_neg hin] at hT
      exact ⟨fun h => (hR.noTopic t hT x).1 h.1, fun h => (hR.noTopic t hT x).2 h.1⟩

/-- The disconnect of an endpoint that is not lonely succeeds. -/
theorem Rel.disconnect (hR : Rel w g) (e : Nat) (E : Endpoint) (hE : w.eps e = some E)
    (hl : ¬ g.Lonely e) (w' : World) (hw : w'.topics = w.topics) (E' : Endpoint)
    (hE' : w'.eps e = some E') (hs' : E'.subscriptions = E.subscriptions)
    (hp' : E'.publications = E.publications) :
    SigSlots.disconnect w' e = .ok { w' with
      topics := fun t => if t ∈ E.subscriptions ∨ t ∈ E.publications.map Prod.fst
        then (w.topics t).bind (rem e) else w.topics t
      eps := upd w'.eps e (some { E' with subscriptions := [], publications := [] }) } := by
  obtain ⟨h1, h2, h3, h4, h5, h6, h7⟩ := hR.ep e E hE
  have := disconnect_ok w' e E' hE' (by rw [hs']; exact h3) (by rw [hp']; exact h5)
    (by intro t ht; rw [hw]; rw [hs', h4] at ht
        obtain ⟨T, hT⟩ := hR.sub_topic ht; simp [hT])
    (by intro t ht; rw [hw]; rw [hp', h6] at ht
        obtain ⟨T, hT⟩ := hR.pub_topic ht; simp [hT])
    (by intro t T ht; rw [hw] at ht; exact ⟨(hR.topic t T ht).1, (hR.topic t T ht).2.1⟩)
    (by
      intro t T ht hs hp
      rw [hw] at ht; rw [hs', h4] at hs; rw [hp', h6] at hp
      obtain ⟨-, -, k3, k4, -⟩ := hR.topic t T ht
      by_contra hc
      apply hl
      refine ⟨t, hp, hs, ?_⟩
      intro x hx
      by_contra hne
      exact hc ⟨x, hne, by rw [k3, k4]; exact hx⟩)
  rw [this, hs', hp', hw]

theorem countP_filter_key (hs : List (Nat × Nat)) (hn : (hs.map Prod.fst).Nodup) (h e f : Nat)
    (hm : (h, e) ∈ hs) :
    (hs.filter fun p => p.1 ≠ h).countP (fun p => p.2 = f)
      = hs.countP (fun p => p.2 = f) - if f = e then 1 else 0 := by
  induction hs with
  | nil => cases hm
  | cons p hs ih =>
    obtain ⟨k, x⟩ := p
    simp only [List.map_cons, List.nodup_cons] at hn
    by_cases hk : k = h
    · subst hk
      have hx : x = e := by
        rcases List.mem_cons.1 hm with h' | h'
        · simp at h'; exact h'.symm
        · exact absurd (List.mem_map_of_mem (f := Prod.fst) h') hn.1
      subst hx
      have hall : hs.filter (fun p => decide (p.1 ≠ k)) = hs := by
        rw [List.filter_eq_self]
        intro p hp
        simp only [ne_eq, decide_not, Bool.not_eq_eq_eq_not, Bool.not_true, decide_eq_false_iff_not]
        rintro rfl
        exact hn.1 (List.mem_map_of_mem (f := Prod.fst) hp)
      rw [List.filter_cons_of_neg (by simp), hall, List.countP_cons]
      by_cases hf : f = x
      · subst hf; simp
      · simp [hf, Ne.symm hf]
    · have hm' : (h, e) ∈ hs := by
        rcases List.mem_cons.1 hm with h' | h'
        · simp at h'; exact absurd h'.1.symm hk
        · exact h'
      rw [List.filter_cons_of_pos (by simpa using hk), List.countP_cons, List.countP_cons,
        ih hn.2 hm']
      have hpos : f = e → 0 < hs.countP (fun p => p.2 = f) := by
        rintro rfl
        exact List.countP_pos_iff.2 ⟨_, hm', by simp⟩
      by_cases hf : f = e
      · have := hpos hf
        simp only [hf, if_true] at this ⊢
        omega
      · simp [hf]

theorem countP_alive (hs : List (Nat × Nat)) (e : Nat) :
    0 < hs.countP (fun p => p.2 = e) ↔ ∃ h, (h, e) ∈ hs := by
  rw [List.countP_pos_iff]
  constructor
  · rintro ⟨⟨h, f⟩, hm, hf⟩
    simp at hf; subst hf
    exact ⟨h, hm⟩
  · rintro ⟨h, hm⟩; exact ⟨_, hm, by simp⟩

/-- Cutting an endpoint's connections. -/
theorem Rel.cut (hR : Rel w g) (e : Nat) (E : Endpoint) (hE : w.eps e = some E)
    (P : Nat → Prop) (hP : ∀ x, P x ↔ x = e) :
    Rel { w with
      topics := fun t => if t ∈ E.subscriptions ∨ t ∈ E.publications.map Prod.fst
        then (w.topics t).bind (rem e) else w.topics t
      eps := upd w.eps e (some { E with subscriptions := [], publications := [] }) }
      (g.cut P) := by
  obtain ⟨h1, h2⟩ := topics_cut hR e E hE
  constructor
  · exact hR.handles
  · exact hR.keys
  · exact hR.created
  · exact hR.bound
  · intro f F hF
    simp only [upd] at hF
    by_cases hf : f = e
    · subst hf
      simp only [if_true, Option.some.injEq] at hF
      subst hF
      obtain ⟨k1, k2, k3, k4, k5, k6, k7⟩ := hR.ep f E hE
      simp [Wiring.cut, k1, k2, hP]
    · rw [if_neg hf] at hF
      obtain ⟨k1, k2, k3, k4, k5, k6, k7⟩ := hR.ep f F hF
      refine ⟨k1, k2, k3, ?_, k5, ?_, ?_⟩
      · intro t; simp [Wiring.cut, hP, k4, hf]
      · intro t; simp only [Wiring.cut, hP, k6, hf, not_false_eq_true, and_true]
      · intro p hp
        obtain ⟨T, hT, hu⟩ := k7 p hp
        have hpub : g.pub f p.1 := (k6 p.1).1 (List.mem_map_of_mem (f := Prod.fst) hp)
        simp only
        cases hT' : (if p.1 ∈ E.subscriptions ∨ p.1 ∈ E.publications.map Prod.fst
          then (w.topics p.1).bind (rem e) else w.topics p.1) with
        | none => exact absurd ⟨hpub, hf⟩ (h2 p.1 hT' f).1
        | some T' =>
          obtain ⟨T'', e1, e2⟩ := (h1 p.1 T' hT').2.2.2.2.2
          rw [hT] at e1
          obtain rfl := Option.some.inj e1
          exact ⟨T', rfl, by rw [e2, hu]⟩
  · intro f
    have := hR.alive f
    change _ ↔ g.Alive f
    simp only [upd]
    by_cases hf : f = e
    · subst hf; rw [hE] at this; simp at this; simpa using this
    · simpa [hf] using this
  · intro f hf t
    have := hR.dead f hf t
    simp only [Wiring.cut]
    tauto
  · intro t T hT
    obtain ⟨k1, k2, k3, k4, k5, -⟩ := h1 t T hT
    simp only [Wiring.cut, hP]
    exact ⟨k1, k2, k3, k4, k5⟩
  · intro t hT x
    simp only [Wiring.cut, hP]
    exact h2 t hT x
  · exact hR.deleted

/-- Extensionally equal wirings. -/
theorem Rel.congr (hR : Rel w g) (g' : Wiring) (h1 : g'.handles = g.handles)
    (h2 : g'.created = g.created) (h3 : g'.signal = g.signal)
    (h4 : ∀ e t, g'.pub e t ↔ g.pub e t) (h5 : ∀ e t, g'.sub e t ↔ g.sub e t) : Rel w g' := by
  have hp : g'.pub = g.pub := by funext e t; exact propext (h4 e t)
  have hs : g'.sub = g.sub := by funext e t; exact propext (h5 e t)
  obtain ⟨a, b, c, d, f⟩ := g
  obtain ⟨a', b', c', d', f'⟩ := g'
  simp only at h1 h2 h3 hp hs
  subst h1 h2 h3 hp hs
  exact hR

theorem Rel.create (hR : Rel w g) (h : Nat) (hf : ∀ e, ¬ g.At h e) (relay : Bool) (g' : Wiring)
    (h1 : g'.handles = g.handles ++ [(h, g.created)]) (h2 : g'.created = g.created + 1)
    (h3 : ∀ e, g'.signal e = if e = g.created then relay else g.signal e)
    (h4 : g'.pub = g.pub) (h5 : g'.sub = g.sub) : Rel (SigSlots.create w h relay) g' := by
  have hnew : ¬ g.Alive g.created := by
    rintro ⟨k, hk⟩
    have := hR.bound _ hk
    simp at this
  have halive : ∀ e, g'.Alive e ↔ g.Alive e ∨ e = g.created := by
    intro e
    simp only [Wiring.Alive, Wiring.At, h1, List.mem_append, List.mem_singleton, Prod.mk.injEq]
    constructor
    · rintro ⟨k, hk | ⟨_, rfl⟩⟩
      · exact .inl ⟨k, hk⟩
      · exact .inr rfl
    · rintro (⟨k, hk⟩ | rfl)
      · exact ⟨k, .inl hk⟩
      · exact ⟨h, .inr ⟨rfl, rfl⟩⟩
  have hnone : w.eps g.created = none := by
    cases hc : w.eps g.created with
    | none => rfl
    | some E => exact absurd ((hR.alive _).1 (by simp [hc])) hnew
  constructor
  · simp [SigSlots.create, h1, hR.handles, hR.created]
  · rw [h1, List.map_append]
    refine List.Nodup.append hR.keys (by simp) ?_
    intro k hk hk'
    simp at hk'; subst hk'
    obtain ⟨p, hp, rfl⟩ := List.mem_map.1 hk
    exact hf p.2 hp
  · simp [SigSlots.create, h2, hR.created]
  · intro p hp
    rw [h1] at hp; rw [h2]
    rcases List.mem_append.1 hp with hp | hp
    · exact Nat.lt_succ_of_lt (hR.bound p hp)
    · simp at hp; subst hp; simp
  · intro e E hE
    simp only [SigSlots.create, upd, hR.created] at hE
    by_cases he : e = g.created
    · subst he
      simp only [if_true, Option.some.injEq] at hE
      subst hE
      have h0 : g.handles.countP (fun p => p.2 = g.created) = 0 := by
        by_contra hc
        exact hnew ((countP_alive g.handles g.created).1 (Nat.pos_of_ne_zero hc))
      have hd := hR.dead _ hnew
      simp [h1, h3, h4, h5, h0, fun t => (hd t).1, fun t => (hd t).2, List.countP_append]
    · rw [if_neg he] at hE
      obtain ⟨k1, k2, k3, k4, k5, k6, k7⟩ := hR.ep e E hE
      rw [h3, if_neg he, h1, h4, h5, List.countP_append]
      refine ⟨k1, ?_, k3, k4, k5, k6, k7⟩
      simp [k2, Ne.symm he]
  · intro e
    rw [halive]
    simp only [SigSlots.create, upd, hR.created]
    by_cases he : e = g.created
    · simp [he]
    · simp only [he, if_false, or_false]; exact hR.alive e
  · intro e he t
    rw [h4, h5]
    exact hR.dead e (fun h => he ((halive e).2 (.inl h))) t
  · intro t T hT
    rw [h4, h5]; exact hR.topic t T hT
  · intro t hT
    rw [h4, h5]; exact hR.noTopic t hT
  · refine ⟨hR.deleted.1, fun e => ?_⟩
    have := hR.deleted.2 e
    simp only [SigSlots.create, halive, h2]
    rw [this]
    constructor
    · rintro ⟨h1, h2⟩
      exact ⟨by omega, by rintro (h | h); exacts [h2 h, by omega]⟩
    · rintro ⟨h1, h2⟩
      have : e ≠ g.created := fun h => h2 (.inr h)
      exact ⟨by omega, fun h => h2 (.inl h)⟩

theorem filter_key (hs : List (Nat × Nat)) (hn : (hs.map Prod.fst).Nodup) (k e : Nat)
    (hm : (k, e) ∈ hs) : hs.filter (fun p => p.1 = k) = [(k, e)] := by
  induction hs with
  | nil => cases hm
  | cons p hs ih =>
    obtain ⟨k', x⟩ := p
    simp only [List.map_cons, List.nodup_cons] at hn
    rcases List.mem_cons.1 hm with h' | h'
    · simp only [Prod.mk.injEq] at h'
      obtain ⟨rfl, rfl⟩ := h'
      rw [List.filter_cons_of_pos (by simp)]
      congr 1
      rw [List.filter_eq_nil_iff]
      intro p hp
      simp only [decide_eq_true_eq]
      rintro rfl
      exact hn.1 (List.mem_map_of_mem (f := Prod.fst) hp)
    · have : k' ≠ k := by
        rintro rfl; exact hn.1 (List.mem_map_of_mem (f := Prod.fst) h')
      rw [List.filter_cons_of_neg (by simpa using this)]
      exact ih hn.2 h'

/-- Every legal call succeeds and the wiring keeps describing the world. -/
theorem Rel.step (hR : Rel w g) (op : Op) (hl : g.Legal op) :
    ∃ w', SigSlots.step w op = .ok w' ∧ Rel w' (g.after op) := by
  cases op with
  | newSignal h => exact ⟨_, rfl, hR.create h hl true _ rfl rfl (fun e => rfl) rfl rfl⟩
  | newSlot h => exact ⟨_, rfl, hR.create h hl false _ rfl rfl (fun e => rfl) rfl rfl⟩
  | copy h k =>
    obtain ⟨hf, e, hk⟩ := hl
    obtain ⟨h1, E, hE⟩ := hR.at_handle hk
    have hgh : g.handles ++ (g.handles.filter fun p => p.1 = k).map (fun p => (h, p.2))
        = g.handles ++ [(h, e)] := by
      rw [filter_key _ hR.keys k e hk]; rfl
    have halive : ∀ x, (g.after (.copy h k)).Alive x ↔ g.Alive x := by
      intro x
      simp only [Wiring.after, hgh, Wiring.Alive, Wiring.At, List.mem_append, List.mem_singleton,
        Prod.mk.injEq]
      constructor
      · rintro ⟨j, hj | ⟨_, rfl⟩⟩
        · exact ⟨j, hj⟩
        · exact ⟨k, hk⟩
      · rintro ⟨j, hj⟩; exact ⟨j, .inl hj⟩
    refine ⟨_, by simp only [SigSlots.step, SigSlots.copy, h1, hE]; rfl, ?_⟩
    constructor
    · simp only [Wiring.after, hgh, hR.handles]
    · simp only [Wiring.after, hgh, List.map_append]
      refine List.Nodup.append hR.keys (by simp) ?_
      intro j hj hj'
      simp at hj'; subst hj'
      obtain ⟨p, hp, rfl⟩ := List.mem_map.1 hj
      exact hf p.2 hp
    · exact hR.created
    · intro p hp
      simp only [Wiring.after, hgh] at hp
      rcases List.mem_append.1 hp with hp | hp
      · exact hR.bound p hp
      · simp at hp; subst hp; exact hR.bound (k, e) hk
    · intro f F hF
      simp only [upd] at hF
      simp only [Wiring.after, hgh, List.countP_append]
      by_cases hf' : f = e
      · subst hf'
        simp only [if_true, Option.some.injEq] at hF
        subst hF
        obtain ⟨k1, k2, k3, k4, k5, k6, k7⟩ := hR.ep f E hE
        refine ⟨k1, by simp [k2], k3, k4, k5, k6, k7⟩
      · rw [if_neg hf'] at hF
        obtain ⟨k1, k2, k3, k4, k5, k6, k7⟩ := hR.ep f F hF
        refine ⟨k1, by simp [k2, Ne.symm hf'], k3, k4, k5, k6, k7⟩
    · intro f
      rw [halive, ← hR.alive]
      simp only [upd]
      by_cases hf' : f = e
      · subst hf'; simp [hE]
      · simp [hf']
    · intro f hf'
      exact hR.dead f (fun h => hf' ((halive f).2 h))
    · exact hR.topic
    · exact hR.noTopic
    · refine ⟨hR.deleted.1, fun f => ?_⟩
      rw [halive]; exact hR.deleted.2 f
  | assign h k =>
    obtain ⟨e, hh, hk⟩ := hl
    obtain ⟨h1, E, hE⟩ := hR.at_handle hk
    obtain ⟨h2, -⟩ := hR.at_handle hh
    have hmap : w.handles.map (fun p => if p.1 = h then (h, e) else p) = w.handles := by
      rw [hR.handles]
      conv => rhs; rw [← List.map_id g.handles]
      apply List.map_congr_left
      rintro ⟨j, x⟩ hj
      by_cases hjh : j = h
      · subst hjh
        have := at_unique hR.keys hj hh
        simp [this]
      · simp [hjh]
    refine ⟨w, ?_, hR⟩
    simp only [SigSlots.step, SigSlots.assign, h1, h2, hmap]
  | destroy h =>
    obtain ⟨e, hh, hlone⟩ := hl
    obtain ⟨h1, E, hE⟩ := hR.at_handle hh
    obtain ⟨k1, k2, k3, k4, k5, k6, k7⟩ := hR.ep e E hE
    have hpos : 0 < g.handles.countP (fun p => p.2 = e) := (countP_alive _ _).2 ⟨h, hh⟩
    -- handles without h
    set hs' := g.handles.filter (fun p => decide (p.1 ≠ h)) with hhs'
    have hcount : ∀ f, hs'.countP (fun p => p.2 = f)
        = g.handles.countP (fun p => p.2 = f) - if f = e then 1 else 0 := fun f =>
      countP_filter_key g.handles hR.keys h e f hh
    have halive' : ∀ f, (∃ j, (j, f) ∈ hs') ↔ if f = e then E.handles ≠ 1 else g.Alive f := by
      intro f
      rw [← countP_alive, hcount]
      by_cases hf : f = e
      · subst hf; simp only [if_true, k2]; omega
      · simp only [hf, if_false, Nat.sub_zero]; exact countP_alive _ _
    have hkeys' : (hs'.map Prod.fst).Nodup := by
      refine hR.keys.sublist ?_
      exact (List.filter_sublist (l := g.handles)).map _
    have hbound' : ∀ p ∈ hs', p.2 < g.created := fun p hp =>
      hR.bound p (List.mem_filter.1 hp).1
    have hwh : w.handles.filter (fun p => decide (p.1 ≠ h)) = hs' := by rw [hR.handles]
    have hne0 : E.handles ≠ 0 := by omega
    by_cases hlast : E.handles = 1
    · -- the last handle: the endpoint is deleted
      have honly : ∀ k, g.At k e → k = h := by
        intro k hk
        by_contra hne
        have : ∃ j, (j, e) ∈ hs' := ⟨k, List.mem_filter.2 ⟨hk, by simpa using hne⟩⟩
        rw [halive' e] at this
        simp [hlast] at this
      have hdisc := hR.disconnect e E hE (hlone honly)
        { w with handles := hs', eps := upd w.eps e (some { E with handles := 0 }) } rfl
        { E with handles := 0 } (by simp [upd]) rfl rfl
      refine ⟨{ w with
        handles := hs'
        topics := fun t => if t ∈ E.subscriptions ∨ t ∈ E.publications.map Prod.fst
          then (w.topics t).bind (rem e) else w.topics t
        eps := upd w.eps e none
        deleted := w.deleted ++ [e] }, ?_, ?_⟩
      · simp only [SigSlots.step, SigSlots.destroy, h1, hE, hwh, if_neg hne0]
        have hz : E.handles - 1 = 0 := by omega
        simp only [hz, if_true, SigSlots.delete, hdisc, Outcome.bind_ok]
        congr 2
        funext x
        by_cases hx : x = e <;> simp [upd, hx]
      · have hdeadiff : ∀ x, (¬ ∃ j, (j, x) ∈ hs') ↔ (x = e ∨ ¬ g.Alive x) := by
          intro x; rw [halive']
          by_cases hx : x = e
          · simp [hx, hlast]
          · simp [hx]
        have hP : ∀ x, ¬ x = e → ((∃ j, (j, x) ∈ hs') ↔ g.Alive x) := by
          intro x hx; rw [halive', if_neg hx]
        have hcutp : ∀ x t, (g.pub x t ∧ ¬ ¬ ∃ j, (j, x) ∈ hs') ↔ (g.pub x t ∧ ¬ x = e) := by
          intro x t
          rw [hdeadiff]
          constructor
          · rintro ⟨a, b⟩; exact ⟨a, fun h => b (.inl h)⟩
          · rintro ⟨a, b⟩
            refine ⟨a, ?_⟩
            rintro (h | h)
            · exact b h
            · exact (hR.dead x h t).1 a
        have hcuts : ∀ x t, (g.sub x t ∧ ¬ ¬ ∃ j, (j, x) ∈ hs') ↔ (g.sub x t ∧ ¬ x = e) := by
          intro x t
          rw [hdeadiff]
          constructor
          · rintro ⟨a, b⟩; exact ⟨a, fun h => b (.inl h)⟩
          · rintro ⟨a, b⟩
            refine ⟨a, ?_⟩
            rintro (h | h)
            · exact b h
            · exact (hR.dead x h t).2 a
        refine Rel.congr (g := { g with
          handles := hs', pub := fun x t => g.pub x t ∧ ¬ x = e,
          sub := fun x t => g.sub x t ∧ ¬ x = e }) ?_ _ rfl rfl rfl hcutp hcuts
        obtain ⟨t1, t2⟩ := topics_cut hR e E hE
        constructor
        · rfl
        · exact hkeys'
        · exact hR.created
        · exact hbound'
        · intro f F hF
          simp only [upd] at hF
          by_cases hf : f = e
          · simp [hf] at hF
          · rw [if_neg hf] at hF
            obtain ⟨j1, j2, j3, j4, j5, j6, j7⟩ := hR.ep f F hF
            refine ⟨j1, ?_, j3, ?_, j5, ?_, ?_⟩
            · simp only [hcount, hf, if_false, Nat.sub_zero, j2]
            · intro t; simp [j4, hf]
            · intro t; simp only [j6, hf, not_false_eq_true, and_true]
            · intro p hp
              obtain ⟨T, hT, hu⟩ := j7 p hp
              have hpub : g.pub f p.1 := (j6 p.1).1 (List.mem_map_of_mem (f := Prod.fst) hp)
              simp only
              cases hT' : (if p.1 ∈ E.subscriptions ∨ p.1 ∈ E.publications.map Prod.fst
                then (w.topics p.1).bind (rem e) else w.topics p.1) with
              | none => exact absurd ⟨hpub, hf⟩ (t2 p.1 hT' f).1
              | some T' =>
                obtain ⟨T'', e1, e2⟩ := (t1 p.1 T' hT').2.2.2.2.2
                rw [hT] at e1
                obtain rfl := Option.some.inj e1
                exact ⟨T', rfl, by rw [e2, hu]⟩
        · intro f
          change _ ↔ ∃ j, (j, f) ∈ hs'
          by_cases hf : f = e
          · subst hf
            rw [halive' f]; simp [upd, hlast]
          · rw [hP f hf, ← hR.alive]; simp [upd, hf]
        · intro f hf t
          have hf : ¬ ∃ j, (j, f) ∈ hs' := hf
          rcases (hdeadiff f).1 hf with rfl | hf
          · simp
          · have := hR.dead f hf t; simp only; tauto
        · intro t T hT
          obtain ⟨j1, j2, j3, j4, j5, -⟩ := t1 t T hT
          exact ⟨j1, j2, j3, j4, j5⟩
        · exact t2
        · have hdel := hR.deleted
          have halv : g.Alive e := ⟨h, hh⟩
          refine ⟨?_, ?_⟩
          · refine List.Nodup.append hdel.1 (by simp) ?_
            intro x hx hx'
            simp at hx'; subst hx'
            exact ((hdel.2 x).1 hx).2 halv
          · intro x
            change _ ↔ x < g.created ∧ ¬ ∃ j, (j, x) ∈ hs'
            rw [hdeadiff]
            simp only [List.mem_append, List.mem_singleton, hdel.2]
            constructor
            · rintro (⟨a, b⟩ | rfl)
              · exact ⟨a, .inr b⟩
              · exact ⟨hR.bound _ hh, .inl rfl⟩
            · rintro ⟨a, b | b⟩
              · exact .inr b
              · exact .inl ⟨a, b⟩
    · -- other handles remain
      have halive : ∀ f, (∃ j, (j, f) ∈ hs') ↔ g.Alive f := by
        intro f; rw [halive']
        by_cases hf : f = e
        · subst hf; simp [hlast]; exact ⟨h, hh⟩
        · simp [hf]
      refine ⟨{ w with handles := hs', eps := upd w.eps e (some { E with handles := E.handles - 1 }) },
        ?_, ?_⟩
      · simp only [SigSlots.step, SigSlots.destroy, h1, hE, hwh, if_neg hne0]
        rw [if_neg (by omega)]
      · refine Rel.congr (g := { g with handles := hs' }) ?_ _ rfl rfl rfl ?_ ?_
        · constructor
          · rfl
          · exact hkeys'
          · exact hR.created
          · exact hbound'
          · intro f F hF
            simp only [upd] at hF
            by_cases hf : f = e
            · subst hf
              simp only [if_true, Option.some.injEq] at hF
              subst hF
              refine ⟨k1, ?_, k3, k4, k5, k6, k7⟩
              simp only [hcount, if_true, k2]
            · rw [if_neg hf] at hF
              obtain ⟨j1, j2, j3, j4, j5, j6, j7⟩ := hR.ep f F hF
              refine ⟨j1, ?_, j3, j4, j5, j6, j7⟩
              simp only [hcount, hf, if_false, Nat.sub_zero, j2]
          · intro f
            change _ ↔ ∃ j, (j, f) ∈ hs'
            rw [halive, ← hR.alive]
            by_cases hf : f = e
            · subst hf; simp [upd, hE]
            · simp [upd, hf]
          · intro f hf t
            exact hR.dead f (fun h => hf ((halive f).2 h)) t
          · exact hR.topic
          · exact hR.noTopic
          · refine ⟨hR.deleted.1, fun f => ?_⟩
            change _ ↔ f < g.created ∧ ¬ ∃ j, (j, f) ∈ hs'
            rw [halive]; exact hR.deleted.2 f
        · intro x t
          change (g.pub x t ∧ ¬ ¬ ∃ j, (j, x) ∈ hs') ↔ g.pub x t
          rw [halive]
          constructor
          · exact fun h => h.1
          · intro h; exact ⟨h, fun hn => (hR.dead x hn t).1 h⟩
        · intro x t
          change (g.sub x t ∧ ¬ ¬ ∃ j, (j, x) ∈ hs') ↔ g.sub x t
          rw [halive]
          constructor
          · exact fun h => h.1
          · intro h; exact ⟨h, fun hn => (hR.dead x hn t).2 h⟩
  | connect h t =>
    obtain ⟨e, hh⟩ := hl
    obtain ⟨h1, E, hE⟩ := hR.at_handle hh
    obtain ⟨k1, k2, k3, k4, k5, k6, k7⟩ := hR.ep e E hE
    have hat : ∀ x, g.At h x ↔ x = e := fun x =>
      ⟨fun hx => at_unique hR.keys hx hh, fun hx => hx ▸ hh⟩
    have huid : ∀ T, w.topics t = some T → topicAt w t = T := by
      intro T hT; simp [topicAt, hT]
    refine ⟨_, by simp only [SigSlots.step, onHandle, h1, connectSignal, hE]; rfl, ?_⟩
    refine Rel.congr (g := { g with pub := fun x u => g.pub x u ∨ (x = e ∧ u = t) }) ?_ _ rfl rfl rfl
      (by intro x u; simp only [Wiring.after, hat]) (by intro x u; rfl)
    have htop : ∀ u T, upd w.topics t (some { topicAt w t with
        pubs := insertSet e (topicAt w t).pubs }) u = some T →
        (u = t ∧ T = { topicAt w t with pubs := insertSet e (topicAt w t).pubs }) ∨
        (u ≠ t ∧ w.topics u = some T) := by
      intro u T hT
      simp only [upd] at hT
      by_cases hu : u = t
      · rw [if_pos hu] at hT; exact .inl ⟨hu, (Option.some.inj hT).symm⟩
      · rw [if_neg hu] at hT; exact .inr ⟨hu, hT⟩
    constructor
    · exact hR.handles
    · exact hR.keys
    · exact hR.created
    · exact hR.bound
    · intro f F hF
      simp only [upd] at hF
      have hptr : ∀ p : String × Nat, (∃ T, w.topics p.1 = some T ∧ T.uid = p.2) →
          ∃ T, upd w.topics t (some { topicAt w t with
            pubs := insertSet e (topicAt w t).pubs }) p.1 = some T ∧ T.uid = p.2 := by
        rintro ⟨u, i⟩ ⟨T, hT, hu⟩
        by_cases hu' : u = t
        · subst hu'
          exact ⟨_, if_pos rfl, by simp only [huid T hT]; exact hu⟩
        · exact ⟨T, by simp only [upd, hu', if_false]; exact hT, hu⟩
      by_cases hf : f = e
      · subst hf
        simp only [if_true, Option.some.injEq] at hF
        subst hF
        by_cases hany : E.publications.any (fun p => decide (p.1 = t)) = true
        · have hmem : t ∈ E.publications.map Prod.fst := by
            rw [List.any_eq_true] at hany
            obtain ⟨p, hp, hpt⟩ := hany
            simp at hpt; subst hpt
            exact List.mem_map_of_mem hp
          simp only [hany, if_true]
          refine ⟨k1, k2, k3, k4, k5, ?_, fun p hp => hptr p (k7 p hp)⟩
          intro u; rw [k6]
          constructor
          · exact .inl
          · rintro (h | ⟨_, rfl⟩)
            · exact h
            · exact (k6 u).1 hmem
        · have hmem : t ∉ E.publications.map Prod.fst := by
            intro h
            obtain ⟨p, hp, rfl⟩ := List.mem_map.1 h
            exact hany (List.any_eq_true.2 ⟨p, hp, by simp⟩)
          simp only [hany, if_false, Bool.false_eq_true]
          refine ⟨k1, k2, k3, k4, ?_, ?_, ?_⟩
          · rw [List.map_append]
            refine List.Nodup.append k5 (by simp) ?_
            intro u hu hu'
            simp at hu'; subst hu'; exact hmem hu
          · intro u
            rw [List.map_append, List.mem_append, k6]
            simp
          · intro p hp
            rcases List.mem_append.1 hp with hp | hp
            · exact hptr p (k7 p hp)
            · simp at hp; subst hp
              exact ⟨_, if_pos rfl, rfl⟩
      · rw [if_neg hf] at hF
        obtain ⟨j1, j2, j3, j4, j5, j6, j7⟩ := hR.ep f F hF
        exact ⟨j1, j2, j3, j4, j5, by intro u; rw [j6]; simp [hf], fun p hp => hptr p (j7 p hp)⟩
    · intro f
      change _ ↔ g.Alive f
      rw [← hR.alive]
      by_cases hf : f = e
      · subst hf; simp [upd, hE]
      · simp [upd, hf]
    · intro f hf u
      have hf : ¬ g.Alive f := hf
      have := hR.dead f hf u
      refine ⟨?_, this.2⟩
      rintro (h | ⟨rfl, _⟩)
      · exact this.1 h
      · exact hf ⟨h, hh⟩
    · intro u T hT
      rcases htop u T hT with ⟨rfl, rfl⟩ | ⟨hu, hT⟩
      · cases hu : w.topics u with
        | none =>
          have hn := hR.noTopic u hu
          simp only [topicAt, hu, Option.getD_none]
          refine ⟨nodup_insertSet _ _ (by simp), by simp, ?_, ?_, ?_⟩
          · intro x; rw [mem_insertSet]; simp [(hn x).1]
          · intro x; simp [(hn x).2]
          · left; simp [insertSet]
        | some T0 =>
          obtain ⟨j1, j2, j3, j4, j5⟩ := hR.topic u T0 hu
          simp only [topicAt, hu, Option.getD_some]
          refine ⟨nodup_insertSet _ _ j1, j2, ?_, j4, ?_⟩
          · intro x; rw [mem_insertSet, j3]; simp
          · left
            intro h0
            have : e ∈ insertSet e T0.pubs := (mem_insertSet _ _ _).2 (.inr rfl)
            rw [h0] at this; cases this
      · obtain ⟨j1, j2, j3, j4, j5⟩ := hR.topic u T hT
        exact ⟨j1, j2, by intro x; rw [j3]; simp [hu], j4, j5⟩
    · intro u hu x
      simp only [upd] at hu
      by_cases hut : u = t
      · rw [if_pos hut] at hu; cases hu
      · rw [if_neg hut] at hu
        have := hR.noTopic u hu x
        simp only [hut, and_false, or_false]; exact this
    · exact hR.deleted
  | subscribe h t =>
    obtain ⟨e, hh⟩ := hl
    obtain ⟨h1, E, hE⟩ := hR.at_handle hh
    obtain ⟨k1, k2, k3, k4, k5, k6, k7⟩ := hR.ep e E hE
    have hat : ∀ x, g.At h x ↔ x = e := fun x =>
      ⟨fun hx => at_unique hR.keys hx hh, fun hx => hx ▸ hh⟩
    by_cases hin : t ∈ E.subscriptions
    · refine ⟨w, by simp only [SigSlots.step, onHandle, h1, connectSlot, hE, hin, if_true], ?_⟩
      refine Rel.congr hR _ rfl rfl rfl (by intro x u; rfl) ?_
      intro x u
      simp only [Wiring.after, hat]
      constructor
      · rintro (h | ⟨rfl, rfl⟩)
        · exact h
        · exact (k4 u).1 hin
      · exact .inl
    have huid : ∀ T, w.topics t = some T → topicAt w t = T := by
      intro T hT; simp [topicAt, hT]
    refine ⟨_, by simp only [SigSlots.step, onHandle, h1, connectSlot, hE, if_neg hin]; rfl, ?_⟩
    refine Rel.congr (g := { g with sub := fun x u => g.sub x u ∨ (x = e ∧ u = t) }) ?_ _ rfl rfl rfl
      (by intro x u; rfl) (by intro x u; simp only [Wiring.after, hat])
    have htop : ∀ u T, upd w.topics t (some { topicAt w t with
        subs := insertSet e (topicAt w t).subs }) u = some T →
        (u = t ∧ T = { topicAt w t with subs := insertSet e (topicAt w t).subs }) ∨
        (u ≠ t ∧ w.topics u = some T) := by
      intro u T hT
      simp only [upd] at hT
      by_cases hu : u = t
      · rw [if_pos hu] at hT; exact .inl ⟨hu, (Option.some.inj hT).symm⟩
      · rw [if_neg hu] at hT; exact .inr ⟨hu, hT⟩
    constructor
    · exact hR.handles
    · exact hR.keys
    · exact hR.created
    · exact hR.bound
    · intro f F hF
      simp only [upd] at hF
      have hptr : ∀ p : String × Nat, (∃ T, w.topics p.1 = some T ∧ T.uid = p.2) →
          ∃ T, upd w.topics t (some { topicAt w t with
            subs := insertSet e (topicAt w t).subs }) p.1 = some T ∧ T.uid = p.2 := by
        rintro ⟨u, i⟩ ⟨T, hT, hu⟩
        by_cases hu' : u = t
        · subst hu'
          exact ⟨_, if_pos rfl, by simp only [huid T hT]; exact hu⟩
        · exact ⟨T, by simp only [upd, hu', if_false]; exact hT, hu⟩
      by_cases hf : f = e
      · subst hf
        simp only [if_true, Option.some.injEq] at hF
        subst hF
        refine ⟨k1, k2, ?_, ?_, k5, k6, fun p hp => hptr p (k7 p hp)⟩
        · refine List.Nodup.append k3 (by simp) ?_
          intro u hu hu'
          simp at hu'; subst hu'; exact hin hu
        · intro u
          rw [List.mem_append, k4]
          simp
      · rw [if_neg hf] at hF
        obtain ⟨j1, j2, j3, j4, j5, j6, j7⟩ := hR.ep f F hF
        exact ⟨j1, j2, j3, by intro u; rw [j4]; simp [hf], j5, j6, fun p hp => hptr p (j7 p hp)⟩
    · intro f
      change _ ↔ g.Alive f
      rw [← hR.alive]
      by_cases hf : f = e
      · subst hf; simp [upd, hE]
      · simp [upd, hf]
    · intro f hf u
      have hf : ¬ g.Alive f := hf
      have := hR.dead f hf u
      refine ⟨this.1, ?_⟩
      rintro (h | ⟨rfl, _⟩)
      · exact this.2 h
      · exact hf ⟨h, hh⟩
    · intro u T hT
      rcases htop u T hT with ⟨rfl, rfl⟩ | ⟨hu, hT⟩
      · cases hu : w.topics u with
        | none =>
          have hn := hR.noTopic u hu
          simp only [topicAt, hu, Option.getD_none]
          refine ⟨by simp, nodup_insertSet _ _ (by simp), ?_, ?_, ?_⟩
          · intro x; simp [(hn x).1]
          · intro x; rw [mem_insertSet]; simp [(hn x).2]
          · right; simp [insertSet]
        | some T0 =>
          obtain ⟨j1, j2, j3, j4, j5⟩ := hR.topic u T0 hu
          simp only [topicAt, hu, Option.getD_some]
          refine ⟨j1, nodup_insertSet _ _ j2, j3, ?_, ?_⟩
          · intro x; rw [mem_insertSet, j4]; simp
          · right
            intro h0
            have : e ∈ insertSet e T0.subs := (mem_insertSet _ _ _).2 (.inr rfl)
            rw [h0] at this; cases this
      · obtain ⟨j1, j2, j3, j4, j5⟩ := hR.topic u T hT
        exact ⟨j1, j2, j3, by intro x; rw [j4]; simp [hu], j5⟩
    · intro u hu x
      simp only [upd] at hu
      by_cases hut : u = t
      · rw [if_pos hut] at hu; cases hu
      · rw [if_neg hut] at hu
        have := hR.noTopic u hu x
        simp only [hut, and_false, or_false]; exact this
    · exact hR.deleted
  | disconnect h =>
    obtain ⟨e, hh, hlone⟩ := hl
    obtain ⟨h1, E, hE⟩ := hR.at_handle hh
    have hat : ∀ x, g.At h x ↔ x = e := fun x =>
      ⟨fun hx => at_unique hR.keys hx hh, fun hx => hx ▸ hh⟩
    refine ⟨_, ?_, hR.cut e E hE (fun x => g.At h x) hat⟩
    simp only [SigSlots.step, onHandle, h1]
    exact hR.disconnect e E hE hlone w rfl E hE rfl rfl

theorem Rel.run (ops : List Op) : ∀ {w : World} {g : Wiring}, Rel w g → g.AllLegal ops →
    ∃ w', SigSlots.run w ops = .ok w' ∧ Rel w' (g.run ops) := by
  induction ops with
  | nil => intro w g hR _; exact ⟨w, rfl, hR⟩
  | cons op ops ih =>
    intro w g hR hl
    obtain ⟨w', h1, h2⟩ := hR.step op hl.1
    obtain ⟨w'', h3, h4⟩ := ih h2 hl.2
    exact ⟨w'', by simp only [SigSlots.run, h1, Outcome.bind_ok, h3], h4⟩

end Ecl.SigSlots
