import Verif.Spec.Shelf
import Mathlib.Tactic.Basic
import Mathlib.Data.List.Nodup

/-!
# The heap of `Model/OutOfMemory.lean` represents the shelf of `Spec/Shelf.lean`
-/
set_option autoImplicit false

namespace Ecl.Shelf
open Ecl.Scarce
variable {α : Type}

/-- An object and its memory represent a place. -/
def Matches (mem : Nat → Option (List α)) : Option DynHeap.Obj → Place α → Prop
  | o, .absent => o = none
  | o, .bare => o = some ⟨0, none⟩
  | o, .holds l => ∃ p, o = some ⟨l.length, some p⟩ ∧ mem p = some l
  | o, .spoiled n => ∃ p, o = some ⟨n, some p⟩ ∧ mem p = none

/-- The heap represents the shelf. -/
structure Rel (s : St α) (t : Shelf α) : Prop where
  place : ∀ i, Matches s.mem (s.obj i) (t.place i)
  own : ∀ i j n k p, s.obj i = some ⟨n, some p⟩ → s.obj j = some ⟨k, some p⟩ →
    (s.mem p).isSome → i = j
  fresh : ∀ p, s.next ≤ p → s.mem p = none
  below : ∀ i n p, s.obj i = some ⟨n, some p⟩ → p < s.next
  lost : ∃ K : List Nat, K.Nodup ∧ K.length = t.lost ∧
    (∀ p ∈ K, (s.mem p).isSome ∧ ∀ i n, s.obj i ≠ some ⟨n, some p⟩) ∧
    ∀ p, (s.mem p).isSome → p ∈ K ∨ ∃ i n, s.obj i = some ⟨n, some p⟩
  bound : ∃ N, ∀ i, N ≤ i → t.place i = .absent

theorem rel_init : Rel (St.init : St α) Shelf.init where
  place := fun _ => rfl
  own := by intro i j n k p h; simp [St.init] at h
  fresh := fun _ _ => rfl
  below := by intro i n p h; simp [St.init] at h
  lost := ⟨[], List.nodup_nil, rfl, by simp, by simp [St.init]⟩
  bound := ⟨0, fun _ _ => rfl⟩

theorem bound_put {t : Shelf α} (h : ∃ N, ∀ i, N ≤ i → t.place i = .absent) (i : Nat)
    (p : Place α) : ∃ N, ∀ a, N ≤ a → (t.put i p).place a = .absent := by
  obtain ⟨N, h⟩ := h
  refine ⟨max N (i + 1), fun a ha => ?_⟩
  have : a ≠ i := by omega
  simp only [Shelf.put, if_neg this]
  exact h a (by omega)

theorem put_put (t : Shelf α) (i : Nat) (p q : Place α) : (t.put i p).put i q = t.put i q := by
  simp only [Shelf.put, Shelf.mk.injEq, and_true]
  funext a; split <;> rfl

@[simp] theorem put_same (t : Shelf α) (i : Nat) (p : Place α) : (t.put i p).place i = p := by
  simp [Shelf.put]

theorem put_other (t : Shelf α) {i a : Nat} (p : Place α) (h : a ≠ i) :
    (t.put i p).place a = t.place a := by simp [Shelf.put, h]

theorem put_self {t : Shelf α} {i : Nat} {p : Place α} (h : t.place i = p) : t.put i p = t := by
  cases t with | mk f n =>
  simp only [Shelf.put, Shelf.mk.injEq, and_true]
  funext a; split
  · next e => rw [e]; exact h.symm
  · rfl

/-- A place whose object has no live storage. -/
def Idle (t : Shelf α) (i : Nat) : Prop := (t.place i).stored = false

theorem matches_of {mem mem' : Nat → Option (List α)} {o : Option DynHeap.Obj} {q : Place α}
    (h : Matches mem o q) (e : ∀ n p, o = some ⟨n, some p⟩ → mem' p = mem p) :
    Matches mem' o q := by
  cases q with
  | absent => exact h
  | bare => exact h
  | holds l => obtain ⟨p, h1, h2⟩ := h; exact ⟨p, h1, by rw [e _ p h1, h2]⟩
  | spoiled n => obtain ⟨p, h1, h2⟩ := h; exact ⟨p, h1, by rw [e _ p h1, h2]⟩

/-- Storage is given back. -/
theorem rel_free {s s' : St α} {t : Shelf α} {i p n : Nat} {l : List α} (h : Rel s t)
    (hi : s.obj i = some ⟨n, some p⟩) (hl : s.mem p = some l)
    (hm : ∀ a, s'.mem a = if a = p then none else s.mem a) (hn : s'.next = s.next)
    (ho : s'.obj = s.obj) : Rel s' (t.put i (.spoiled n)) where
  place := by
    intro a
    by_cases ha : a = i
    · subst ha
      rw [put_same, ho, hi]
      exact ⟨p, rfl, by simp [hm]⟩
    · rw [put_other _ _ ha, ho]
      refine matches_of (h.place a) fun k q hq => ?_
      rw [hm, if_neg]
      rintro rfl
      exact ha (h.own a i k n q hq hi (by simp [hl]))
  own := by
    intro a b k m q ha hb hq
    rw [ho] at ha hb
    refine h.own a b k m q ha hb ?_
    rw [hm] at hq; split at hq
    · cases hq
    · exact hq
  fresh := by intro q hq; rw [hm]; split; rfl; exact h.fresh q (by omega)
  below := by intro a k q; rw [ho, hn]; exact h.below a k q
  lost := by
    obtain ⟨K, h1, h2, h3, h4⟩ := h.lost
    refine ⟨K, h1, h2, fun q hq => ⟨?_, fun a k => by rw [ho]; exact (h3 q hq).2 a k⟩, fun q hq => ?_⟩
    · have : q ≠ p := by rintro rfl; exact (h3 q hq).2 i n hi
      rw [hm, if_neg this]; exact (h3 q hq).1
    · rw [hm] at hq
      split at hq
      · cases hq
      · rw [ho]; exact h4 q hq
  bound := bound_put h.bound _ _

theorem idle_obj {s : St α} {t : Shelf α} {i : Nat} (h : Rel s t) (hi : Idle t i) {n p : Nat}
    (ho : s.obj i = some ⟨n, some p⟩) : s.mem p = none := by
  have := h.place i
  unfold Idle at hi
  cases hq : t.place i with
  | absent => rw [hq] at this; rw [ho] at this; cases this
  | bare => rw [hq] at this; rw [ho] at this; cases this
  | holds l => rw [hq] at hi; cases hi
  | spoiled k => 
    rw [hq] at this; obtain ⟨q, h1, h2⟩ := this
    rw [ho] at h1; cases h1; exact h2

/-- An object without storage becomes bare, or disappears. -/
theorem rel_obj {s s' : St α} {t : Shelf α} {i : Nat} {o : Option DynHeap.Obj} {q : Place α}
    (h : Rel s t) (hi : Idle t i)
    (hq : o = none ∧ q = .absent ∨ o = some ⟨0, none⟩ ∧ q = .bare)
    (hm : s'.mem = s.mem) (hn : s'.next = s.next)
    (ho : ∀ a, s'.obj a = if a = i then o else s.obj a) : Rel s' (t.put i q) := by
  have hne : ∀ n p, o ≠ some ⟨n, some p⟩ := by
    intro n p; rcases hq with ⟨h, _⟩ | ⟨h, _⟩ <;> simp [h]
  have hold : ∀ a n p, s'.obj a = some ⟨n, some p⟩ → s.obj a = some ⟨n, some p⟩ := by
    intro a n p h
    rw [ho] at h; split at h
    · exact absurd h (hne n p)
    · exact h
  constructor
  · intro a
    by_cases ha : a = i
    · subst ha
      rw [put_same, ho, if_pos rfl]
      rcases hq with ⟨h1, h2⟩ | ⟨h1, h2⟩ <;> rw [h1, h2] <;> rfl
    · rw [put_other _ _ ha, ho, if_neg ha, hm]; exact h.place a
  · intro a b k m p ha hb hp
    rw [hm] at hp
    exact h.own a b k m p (hold _ _ _ ha) (hold _ _ _ hb) hp
  · intro p hp; rw [hm]; exact h.fresh p (by omega)
  · intro a k p hp; rw [hn]; exact h.below a k p (hold _ _ _ hp)
  · obtain ⟨K, h1, h2, h3, h4⟩ := h.lost
    refine ⟨K, h1, h2, fun p hp => ⟨by rw [hm]; exact (h3 p hp).1, fun a k e => ?_⟩, fun p hp => ?_⟩
    · exact (h3 p hp).2 a k (hold _ _ _ e)
    · rw [hm] at hp
      rcases h4 p hp with h | ⟨a, k, e⟩
      · exact .inl h
      · refine .inr ⟨a, k, ?_⟩
        rw [ho, if_neg, e]
        rintro rfl
        rw [idle_obj h hi e] at hp; cases hp
  · exact bound_put h.bound _ _

/-- An object without storage gets a new block. -/
theorem rel_alloc {s s' : St α} {t : Shelf α} {i n : Nat} {l : List α} (h : Rel s t)
    (hi : Idle t i) (hl : l.length = n)
    (hm : ∀ a, s'.mem a = if a = s.next then some l else s.mem a) (hn : s'.next = s.next + 1)
    (ho : ∀ a, s'.obj a = if a = i then some ⟨n, some s.next⟩ else s.obj a) :
    Rel s' (t.put i (.holds l)) := by
  have hs : ∀ a k p, a ≠ i → s'.obj a = some ⟨k, some p⟩ → s.obj a = some ⟨k, some p⟩ ∧ p ≠ s.next := by
    intro a k p ha e
    rw [ho, if_neg ha] at e
    exact ⟨e, by have := h.below a k p e; omega⟩
  have hii : s'.obj i = some ⟨n, some s.next⟩ := by rw [ho, if_pos rfl]
  constructor
  · intro a
    by_cases ha : a = i
    · subst ha
      rw [put_same, hii, ← hl]
      exact ⟨s.next, rfl, by simp [hm]⟩
    · rw [put_other _ _ ha, ho, if_neg ha]
      refine matches_of (h.place a) fun k q hq => ?_
      rw [hm, if_neg]
      have := h.below a k q hq; omega
  · intro a b k m p ha hb hp
    by_cases hai : a = i <;> by_cases hbi : b = i
    · rw [hai, hbi]
    · subst hai; rw [hii] at ha; cases ha; exact absurd rfl (hs b _ _ hbi hb).2
    · subst hbi; rw [hii] at hb; cases hb; exact absurd rfl (hs a _ _ hai ha).2
    · have h1 := hs a _ _ hai ha
      have h2 := hs b _ _ hbi hb
      rw [hm, if_neg h1.2] at hp
      exact h.own a b k m p h1.1 h2.1 hp
  · intro p hp; rw [hm, if_neg (by omega)]; exact h.fresh p (by omega)
  · intro a k p e
    by_cases ha : a = i
    · subst ha; rw [hii] at e; cases e; omega
    · have := h.below a k p (hs a k p ha e).1; omega
  · obtain ⟨K, h1, h2, h3, h4⟩ := h.lost
    refine ⟨K, h1, h2, fun p hp => ?_, fun p hp => ?_⟩
    · have hpn : p ≠ s.next := by
        rintro rfl
        have := (h3 _ hp).1
        rw [h.fresh _ (Nat.le_refl _)] at this; cases this
      refine ⟨by rw [hm, if_neg hpn]; exact (h3 p hp).1, fun a k e => ?_⟩
      by_cases ha : a = i
      · subst ha; rw [hii] at e; cases e; exact hpn rfl
      · exact (h3 p hp).2 a k (hs a k p ha e).1
    · by_cases hpn : p = s.next
      · subst hpn; exact .inr ⟨i, n, hii⟩
      · rw [hm, if_neg hpn] at hp
        rcases h4 p hp with h' | ⟨a, k, e⟩
        · exact .inl h'
        · refine .inr ⟨a, k, ?_⟩
          rw [ho, if_neg, e]
          rintro rfl
          rw [idle_obj h hi e] at hp; cases hp
  · exact bound_put h.bound _ _

/-- The elements in storage change. -/
theorem rel_write {s s' : St α} {t : Shelf α} {i n p : Nat} {l l' : List α} (h : Rel s t)
    (hi : s.obj i = some ⟨n, some p⟩) (hp : s.mem p = some l) (hn' : l'.length = n)
    (hm : ∀ a, s'.mem a = if a = p then some l' else s.mem a) (hn : s'.next = s.next)
    (ho : s'.obj = s.obj) : Rel s' (t.put i (.holds l')) := by
  have hsome : ∀ q, (s'.mem q).isSome = (s.mem q).isSome := by
    intro q; rw [hm]; split
    · next e => rw [e, hp]; rfl
    · rfl
  constructor
  · intro a
    by_cases ha : a = i
    · subst ha
      rw [put_same, ho, hi, ← hn']
      exact ⟨p, rfl, by simp [hm]⟩
    · rw [put_other _ _ ha, ho]
      refine matches_of (h.place a) fun k q hq => ?_
      rw [hm, if_neg]
      rintro rfl
      exact ha (h.own a i k n q hq hi (by simp [hp]))
  · intro a b k m q; rw [ho, hsome]; exact h.own a b k m q
  · intro q hq
    rw [hm, if_neg]
    · exact h.fresh q (by omega)
    · have := h.below i n p hi; omega
  · intro a k q; rw [ho, hn]; exact h.below a k q
  · obtain ⟨K, h1, h2, h3, h4⟩ := h.lost
    refine ⟨K, h1, h2, fun q hq => ?_, fun q hq => ?_⟩
    · rw [hsome, ho]; exact h3 q hq
    · rw [hsome] at hq; rw [ho]; exact h4 q hq
  · exact bound_put h.bound _ _

/-- A block that no object remembers. -/
theorem rel_lose {s s' : St α} {t : Shelf α} {l : List α} (h : Rel s t)
    (hm : ∀ a, s'.mem a = if a = s.next then some l else s.mem a) (hn : s'.next = s.next + 1)
    (ho : s'.obj = s.obj) : Rel s' { t with lost := t.lost + 1 } := by
  have hlt : ∀ a k p, s.obj a = some ⟨k, some p⟩ → s'.mem p = s.mem p := by
    intro a k p e
    rw [hm, if_neg]; have := h.below a k p e; omega
  constructor
  · intro a; rw [ho]; exact matches_of (h.place a) fun k q hq => hlt a k q hq
  · intro a b k m q; rw [ho]; intro h1 h2; rw [hlt a _ _ h1]; exact h.own a b k m q h1 h2
  · intro p hp; rw [hm, if_neg (by omega)]; exact h.fresh p (by omega)
  · intro a k p e; rw [ho] at e; have := h.below a k p e; omega
  · obtain ⟨K, h1, h2, h3, h4⟩ := h.lost
    have hK : s.next ∉ K := by
      intro hp
      have := (h3 _ hp).1
      rw [h.fresh _ (Nat.le_refl _)] at this; cases this
    refine ⟨s.next :: K, List.nodup_cons.2 ⟨hK, h1⟩, by simp [h2], fun p hp => ?_, fun p hp => ?_⟩
    · rcases List.mem_cons.1 hp with rfl | hp
      · refine ⟨by simp [hm], fun a k e => ?_⟩
        rw [ho] at e; have := h.below a k _ e; omega
      · have hpn : p ≠ s.next := by rintro rfl; exact hK hp
        rw [hm, if_neg hpn, ho]; exact h3 p hp
    · by_cases hpn : p = s.next
      · subst hpn; exact .inl (List.mem_cons_self ..)
      · rw [hm, if_neg hpn] at hp
        rw [ho]
        rcases h4 p hp with h | h
        · exact .inl (List.mem_cons_of_mem _ h)
        · exact .inr h
  · exact h.bound

end Ecl.Shelf
