import Verif.Lemmas.Shelf

/-!
# Every allowed call on the heap answers like the shelf
-/
set_option autoImplicit false

namespace Ecl.Shelf
open Ecl.Scarce
variable {α : Type}

theorem rel_release {s : St α} {t : Shelf α} {i : Nat} (h : Rel s t) (hs : (t.place i).Sound) :
    ∃ o s1, s.obj i = some o ∧ s.release o = .ok s1 () ∧ Rel s1 (t.put i (t.place i).spoil) ∧
      s1.obj = s.obj ∧ Idle (t.put i (t.place i).spoil) i := by
  have hp := h.place i
  cases hq : t.place i with
  | absent => rw [hq] at hs; cases hs
  | spoiled n => rw [hq] at hs; cases hs
  | bare =>
    rw [hq] at hp
    refine ⟨⟨0, none⟩, s, hp, rfl, ?_, rfl, ?_⟩
    · rw [put_self (show t.place i = Place.bare.spoil from hq)]; exact h
    · simp [Idle, Place.spoil, Place.stored]
  | holds l =>
    rw [hq] at hp
    obtain ⟨p, h1, h2⟩ := hp
    refine ⟨_, s.setMem p none, h1, by simp [St.release, h2], ?_, rfl, ?_⟩
    · exact rel_free h h1 h2 (fun a => rfl) rfl rfl
    · simp [Idle, Place.spoil, Place.stored]

theorem idle_absent {t : Shelf α} {i : Nat} (h : t.place i = .absent) : Idle t i := by
  simp [Idle, h, Place.stored]

theorem obj_absent {s : St α} {t : Shelf α} {i : Nat} (h : Rel s t) (hi : t.place i = .absent) :
    s.obj i = none := by
  have := h.place i; rwa [hi] at this

/-- The array read from: its size and elements. -/
theorem obj_sound {s : St α} {t : Shelf α} {j : Nat} (h : Rel s t) (hs : (t.place j).Sound) :
    ∃ o, s.obj j = some o ∧ o.size = (t.place j).elements.length ∧
      ((t.place j).elements ≠ [] → ∃ p, o = ⟨(t.place j).elements.length, some p⟩ ∧
        s.mem p = some (t.place j).elements) := by
  have hp := h.place j
  cases hq : t.place j with
  | absent => rw [hq] at hs; cases hs
  | spoiled n => rw [hq] at hs; cases hs
  | bare => rw [hq] at hp; exact ⟨_, hp, rfl, fun h => absurd rfl h⟩
  | holds l =>
    rw [hq] at hp
    obtain ⟨p, h1, h2⟩ := hp
    exact ⟨_, h1, rfl, fun _ => ⟨p, rfl, h2⟩⟩

/-- Copying a whole array over fresh storage of the same size. -/
theorem copy_over {s : St α} {l : List α} {p q : Nat} (stop : Option Nat) (junk : Nat → α)
    (hq : s.mem q = some l) (hp : s.mem p = some ((List.range l.length).map junk)) :
    s.copy ⟨l.length, some q⟩ ⟨l.length, some p⟩ stop =
      if (overlay l stop junk).2 then .ok (s.setMem p (some (overlay l stop junk).1)) ()
      else .throw (s.setMem p (some (overlay l stop junk).1)) .unknownError := by
  have e : l ++ List.drop l.length (List.map junk (List.range l.length)) = l := by simp
  cases stop with
  | none => simp [St.copy, hq, hp, overlay]; rw [e]
  | some k =>
    by_cases hk : k < l.length
    · simp [St.copy, hq, hp, overlay, hk]
    · simp [St.copy, hq, hp, overlay, hk]; rw [e]

theorem overlay_length (l : List α) (stop : Option Nat) (junk : Nat → α) :
    (overlay l stop junk).1.length = l.length := by
  unfold overlay
  cases stop with
  | none => rfl
  | some k =>
    dsimp only
    split
    · simp; omega
    · rfl

theorem overlay_done {l : List α} {stop : Option Nat} {junk : Nat → α}
    (h : (overlay l stop junk).2 = true) : (overlay l stop junk).1 = l := by
  unfold overlay at *
  cases stop with
  | none => rfl
  | some k =>
    dsimp only at *
    split at h
    · cases h
    · next hk => rw [if_neg hk]

theorem rel_clear {s : St α} {t : Shelf α} {i : Nat} (h : Rel s t) (hs : (t.place i).Sound) :
    ∃ o s', s.obj i = some o ∧ s.clear i o = .ok s' () ∧ Rel s' (t.put i .bare) := by
  obtain ⟨o, s1, h1, h2, h3, h4, h5⟩ := rel_release h hs
  refine ⟨o, s1.setObj i (some ⟨0, none⟩), h1, by simp [St.clear, h2, Res.bind], ?_⟩
  have := rel_obj (s' := s1.setObj i (some ⟨0, none⟩)) h3 h5 (.inr ⟨rfl, rfl⟩) rfl rfl (fun a => rfl)
  rwa [put_put] at this

theorem step_rel (s : St α) (t : Shelf α) (op : Op α) (h : Rel s t) (hl : allowed t op) :
    ∃ s', (step s op).obs = some (s', (spec t op).2) ∧ Rel s' (spec t op).1 := by
  cases op with
  | make i =>
    have hi := obj_absent h hl
    refine ⟨_, by simp [step, hi, Res.obs, spec]; rfl, ?_⟩
    exact rel_obj h (idle_absent hl) (.inr ⟨rfl, rfl⟩) rfl rfl (fun a => rfl)
  | makeOf i n room junk =>
    have hi := obj_absent h hl
    cases room with
    | false => exact ⟨s, by simp [step, hi, Res.obs, spec, St.alloc, Res.bind, done], h⟩
    | true =>
      refine ⟨_, by simp [step, hi, Res.obs, spec, St.alloc, Res.bind, done]; rfl, ?_⟩
      exact rel_alloc h (idle_absent hl) (by simp) (fun a => rfl) rfl (fun a => rfl)
  | makeCopy i j room stop junk =>
    obtain ⟨hi, hj⟩ := hl
    have hn := obj_absent h hi
    obtain ⟨o, ho, hsz, hel⟩ := obj_sound h hj
    by_cases he : (t.place j).elements = []
    · have h0 : o.size = 0 := by simp [hsz, he]
      refine ⟨_, by simp [step, hn, ho, h0, he, Res.obs, spec]; rfl, ?_⟩
      simp only [spec, he, if_true]
      exact rel_obj h (idle_absent hi) (.inr ⟨rfl, rfl⟩) rfl rfl (fun a => rfl)
    · obtain ⟨p, hop, hmp⟩ := hel he
      generalize hL : (t.place j).elements = l at *
      have h0 : l.length ≠ 0 := by intro e; exact he (List.length_eq_zero_iff.1 e)
      subst hop
      cases room with
      | false =>
        refine ⟨s, ?_, ?_⟩
        · simp [step, hn, ho, he, hL, Res.obs, spec, St.alloc, Res.bind, done]
        · simpa [spec, hL, he] using h
      | true =>
        have hpn : p < s.next := h.below j _ p ho
        have hc := copy_over (s := { s.setMem s.next (some ((List.range l.length).map junk)) with
          next := s.next + 1 }) (l := l) (p := s.next) (q := p) stop junk
          (by simp [St.setMem, hmp]; omega) (by simp [St.setMem])
        cases hov : (overlay l stop junk).2 with
        | true =>
          rw [hov, if_pos rfl, overlay_done hov] at hc
          refine ⟨_, by
            simp [step, hn, ho, he, hL, Res.obs, spec, St.alloc, Res.bind, done, hc, hov]; rfl, ?_⟩
          have : (spec t (.makeCopy i j true stop junk)).1 = t.put i (.holds l) := by
            simp [spec, hL, he, hov]
          rw [this]
          refine rel_alloc h (idle_absent hi) rfl (fun a => ?_) rfl (fun a => rfl)
          simp only [St.setMem, St.setObj]; split <;> rfl
        | false =>
          rw [hov] at hc
          refine ⟨_, by
            simp [step, hn, ho, he, hL, Res.obs, spec, St.alloc, Res.bind, done, hc, hov]; rfl, ?_⟩
          have : (spec t (.makeCopy i j true stop junk)).1 = { t with lost := t.lost + 1 } := by
            simp [spec, hL, he, hov]
          rw [this]
          refine rel_lose (l := (overlay l stop junk).1) h (fun a => ?_) rfl rfl
          simp only [St.setMem]; split <;> rfl
  | resize i n room junk =>
    obtain ⟨o, s1, h1, h2, h3, h4, h5⟩ := rel_release h hl
    cases room with
    | false =>
      refine ⟨s1, by simp [step, h1, h2, Res.obs, spec, St.resize, St.alloc, Res.bind, done], ?_⟩
      simpa [spec] using h3
    | true =>
      refine ⟨_, by simp [step, h1, h2, Res.obs, spec, St.resize, St.alloc, Res.bind, done]; rfl, ?_⟩
      have := rel_alloc (s' := ({ s1.setMem s1.next (some ((List.range n).map junk)) with
        next := s1.next + 1 }.setObj i (some ⟨n, some s1.next⟩))) h3 h5
        (l := (List.range n).map junk) (n := n) (by simp) (fun a => rfl) rfl (fun a => rfl)
      rw [put_put] at this
      simpa [spec] using this
  | clear i =>
    obtain ⟨o, s', h1, h2, h3⟩ := rel_clear h hl
    exact ⟨s', by simp [step, h1, h2, Res.obs, spec, done, Res.bind], h3⟩
  | assign i j room stop junk =>
    obtain ⟨hij, hi, hj⟩ := hl
    obtain ⟨o, ho, hsz, hel⟩ := obj_sound h hj
    by_cases he : (t.place j).elements = []
    · have h0 : o.size = 0 := by simp [hsz, he]
      obtain ⟨o', s', h1, h2, h3⟩ := rel_clear h hi
      refine ⟨s', by simp [step, h1, ho, h0, h2, he, Res.obs, spec, done, Res.bind], ?_⟩
      simpa only [spec, he, if_true] using h3
    · obtain ⟨p, hop, hmp⟩ := hel he
      obtain ⟨o', s1, h1, h2, h3, h4, h5⟩ := rel_release h hi
      have hji : j ≠ i := fun e => hij e.symm
      have hmp1 : s1.mem p = some (t.place j).elements := by
        obtain ⟨o2, ho2, _, hel2⟩ := obj_sound (j := j) h3 (by rw [put_other _ _ hji]; exact hj)
        rw [put_other _ _ hji] at hel2
        obtain ⟨p2, hp2, hm2⟩ := hel2 he
        rw [h4, ho, hop] at ho2
        subst hp2
        cases ho2; exact hm2
      generalize hL : (t.place j).elements = l at *
      subst hop
      cases room with
      | false =>
        refine ⟨s1, by
          simp [step, h1, ho, h2, he, hL, Res.obs, spec, St.resize, St.alloc, Res.bind, done], ?_⟩
        simpa [spec, hL, he] using h3
      | true =>
        have hpn : p < s1.next := h3.below j _ p (by rw [h4]; exact ho)
        have hc := copy_over (s := { s1.setMem s1.next (some ((List.range l.length).map junk)) with
          next := s1.next + 1 }.setObj i (some ⟨l.length, some s1.next⟩)) (l := l) (p := s1.next)
          (q := p) stop junk (by simp [St.setMem, St.setObj, hmp1]; omega)
          (by simp [St.setMem, St.setObj])
        have key : ∀ s', (∀ a, s'.mem a =
            if a = s1.next then some (overlay l stop junk).1 else s1.mem a) →
            s'.next = s1.next + 1 →
            (∀ a, s'.obj a = if a = i then some ⟨l.length, some s1.next⟩ else s1.obj a) →
            Rel s' (spec t (.assign i j true stop junk)).1 := by
          intro s' e1 e2 e3
          have := rel_alloc (s' := s') h3 h5 (overlay_length l stop junk) e1 e2 e3
          rw [put_put] at this
          simpa [spec, hL, he] using this
        have hobj : ∀ x : St α, ({ x with next := x.next + 1 } : St α).obj = x.obj := fun _ => rfl
        cases hov : (overlay l stop junk).2 with
        | true =>
          rw [hov, if_pos rfl] at hc
          refine ⟨_, by
            simp [step, h1, ho, h2, he, hL, Res.obs, spec, St.resize, St.alloc, Res.bind, done, hov]
            simp only [St.setObj, St.setMem, if_pos, hji, if_false, h4, ho] at hc ⊢
            rw [hc], ?_⟩
          refine key _ (fun a => ?_) rfl (fun a => by simp [h4])
          dsimp only; split <;> rfl
        | false =>
          rw [hov] at hc
          refine ⟨_, by
            simp [step, h1, ho, h2, he, hL, Res.obs, spec, St.resize, St.alloc, Res.bind, done, hov]
            simp only [St.setObj, St.setMem, if_pos, hji, if_false, h4, ho] at hc ⊢
            rw [hc]
            rfl, ?_⟩
          refine key _ (fun a => ?_) rfl (fun a => by simp [h4])
          dsimp only; split <;> rfl
  | set i k v =>
    obtain ⟨hi, hk⟩ := hl
    have hp := h.place i
    cases hq : t.place i with
    | absent => rw [hq] at hi; cases hi
    | spoiled n => rw [hq] at hi; cases hi
    | bare => rw [hq] at hk; simp [Place.size] at hk
    | holds l =>
      rw [hq] at hp hk
      obtain ⟨p, h1, h2⟩ := hp
      have hk' : k < l.length := hk
      refine ⟨s.setMem p (some (l.set k v)), by simp [step, h1, h2, hk', Res.obs, spec], ?_⟩
      simp only [spec, hq, Place.elements]
      exact rel_write h h1 h2 (by simp) (fun a => rfl) rfl rfl
  | get i k =>
    obtain ⟨o, ho, hsz, hel⟩ := obj_sound h hl
    refine ⟨s, ?_, by simpa [spec] using h⟩
    by_cases hk : k < (t.place i).elements.length
    · obtain ⟨p, h1, h2⟩ := hel (by intro e; simp [e] at hk)
      have : ¬ o.size ≤ k := by omega
      rw [h1] at ho this
      simp only [step, ho, this, if_false, h2, spec, List.getElem?_eq_getElem hk]
      rfl
    · have : o.size ≤ k := by omega
      simp only [step, ho, this, if_true, spec, List.getElem?_eq_none (Nat.not_lt.1 hk)]
      rfl
  | size i =>
    have hp := h.place i
    have hl' : t.place i ≠ .absent := hl
    refine ⟨s, ?_, by simpa [spec] using h⟩
    cases hq : t.place i with
    | absent => exact absurd hq hl'
    | bare => rw [hq] at hp; simp [step, show s.obj i = _ from hp, Res.obs, spec, hq, Place.size]
    | holds l => rw [hq] at hp; obtain ⟨p, h1, _⟩ := hp; simp [step, h1, Res.obs, spec, hq, Place.size]
    | spoiled n => rw [hq] at hp; obtain ⟨p, h1, _⟩ := hp; simp [step, h1, Res.obs, spec, hq, Place.size]
  | destroy i =>
    obtain ⟨o, s1, h1, h2, h3, h4, h5⟩ := rel_release h hl
    refine ⟨_, by simp [step, h1, h2, Res.obs, spec, Res.bind, done]; rfl, ?_⟩
    have := rel_obj (s' := s1.setObj i none) h3 h5 (.inl ⟨rfl, rfl⟩) rfl rfl (fun a => rfl)
    rw [put_put] at this
    exact this

/-- Using a spoiled array is undefined. -/
theorem step_touch (s : St α) (t : Shelf α) (op : Op α) (h : Rel s t) (ht : touches t op) :
    step s op = .ub := by
  have sp : ∀ {i n : Nat}, t.place i = .spoiled n → ∃ p, s.obj i = some ⟨n, some p⟩ ∧
      s.mem p = none := by
    intro i n hi
    have := h.place i
    rwa [hi] at this
  cases op with
  | make i => cases ht
  | makeOf i n room junk => cases ht
  | makeCopy i j room stop junk =>
    obtain ⟨hi, ⟨n, hj, hn⟩, rfl⟩ := ht
    obtain ⟨p, h1, h2⟩ := sp hj
    have hpn := h.below j n p h1
    have : n ≠ 0 := by omega
    have hne : p ≠ s.next := by omega
    simp [step, obj_absent h hi, h1, this, St.alloc, Res.bind, done, St.copy, St.setMem, hne, h2]
  | resize i n room junk =>
    obtain ⟨m, hi⟩ := ht
    obtain ⟨p, h1, h2⟩ := sp hi
    simp [step, h1, St.resize, St.release, h2, Res.bind, done]
  | clear i =>
    obtain ⟨m, hi⟩ := ht
    obtain ⟨p, h1, h2⟩ := sp hi
    simp [step, h1, St.clear, St.release, h2, Res.bind, done]
  | assign i j room stop junk =>
    rcases ht with ⟨⟨m, hi⟩, hj⟩ | ⟨hi, ⟨n, hj, hn⟩, rfl⟩
    · obtain ⟨p, h1, h2⟩ := sp hi
      simp only [step, h1]
      cases hjo : s.obj j with
      | none => rfl
      | some src =>
        by_cases h0 : src.size = 0
        · simp [h0, St.clear, St.release, h2, Res.bind, done]
        · simp [h0, St.resize, St.release, h2, Res.bind, done]
    · obtain ⟨p, h1, h2⟩ := sp hj
      have hji : j ≠ i := by rintro rfl; rw [hj] at hi; cases hi
      obtain ⟨o, s1, ho, hr, h3, h4, h5⟩ := rel_release h hi
      have h6 := h3.place j
      rw [put_other _ _ hji, hj, h4, h1] at h6
      obtain ⟨p', he, hm⟩ := h6
      cases he
      have hpn := h.below j n p h1
      have hpn1 := h3.below j n p (by rw [h4]; exact h1)
      have hne : p ≠ s1.next := by omega
      have h0 : n ≠ 0 := by omega
      simp [step, ho, h1, h0, St.resize, hr, St.alloc, Res.bind, done, St.setObj, St.setMem, hji, h4,
        St.copy, hne, hm]
  | set i k v =>
    obtain ⟨m, hi⟩ := ht
    obtain ⟨p, h1, h2⟩ := sp hi
    simp [step, h1, h2]
  | get i k =>
    obtain ⟨m, hi, hk⟩ := ht
    obtain ⟨p, h1, h2⟩ := sp hi
    have : ¬ m ≤ k := by omega
    simp [step, h1, h2, this]
  | size i => cases ht
  | destroy i =>
    obtain ⟨m, hi⟩ := ht
    obtain ⟨p, h1, h2⟩ := sp hi
    simp [step, h1, St.release, h2, Res.bind, done]

end Ecl.Shelf
