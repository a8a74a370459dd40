import Verif.Lemmas.SharedMemory

/-!
# Lemmas on what is stored in shared memory
-/
set_option autoImplicit false
set_option linter.unusedSimpArgs false

namespace Ecl.SharedMemory

variable {page : Nat}

/-- The name stands for `o`, which has its size, and no constructor is going to initialise it. -/
structure Settled (k : Kind) (o : Nat) (s : Sys) : Prop where
  sound : Sound s
  together : Together s
  alike : Alike k s
  name : s.name = some o
  size : (s.obj o).size = k.len
  done : ∀ h x, s.handle h = some x → x.phase.creator = true → ∃ o, x.phase = .ready o true

/-- What an action makes of a byte. -/
def after (i : Nat) (v : UInt8) : Act → UInt8
  | .write j w => if j = i then w else v
  | _ => v

theorem Settled.done_update {k : Kind} {o : Nat} {s t : Sys} (hs : Settled k o s) {h : Nat}
    {x : Handle} (hh : ∀ j, t.handle j = if j = h then some x else s.handle j)
    (hx : x.phase.creator = true → ∃ o, x.phase = .ready o true) :
    ∀ h x, t.handle h = some x → x.phase.creator = true → ∃ o, x.phase = .ready o true := by
  intro j y hj hy
  rw [hh] at hj
  split at hj
  · cases hj; exact hx hy
  · exact hs.done _ _ hj hy

theorem Settled.step {k : Kind} {o : Nat} {s s' : Sys} {h : Nat} {a : Act} (hp : 0 < page)
    (hs : Settled k o s)
    (hr : a.removes = false) (ha : ∀ k', a = .construct k' → k' = k) (hd : Did page s h a s') :
    Settled k o s' ∧ ∀ i, i < k.len → (s'.obj o).data i = after i ((s.obj o).data i) a := by
  have hS := hs.sound.step hd
  have hT := hs.together.step hr hd
  have hA := hs.alike.step hs.sound ha hd
  have hrez : ∀ i, i < k.len → ((s.obj o).resize k.len).data i = (s.obj o).data i := by
    intro i hi
    simp [Obj.resize, hs.size, hi]
  have obj_of : ∀ {x o'}, s.handle h = some x → x.phase.object = some o' → o' = o := by
    intro x o' hx ho
    have h1 := hs.together _ _ _ hx ho
    rw [hs.name] at h1
    cases h1
    rfl
  cases hd with
  | mapFailed | sizeFailed | unlinked | released => cases hr
  | created k' f q hh ho => rw [hs.name] at ho; cases ho
  | initialised k' f q o' hh hl =>
    obtain ⟨_, h1⟩ := hs.done _ _ hh rfl
    cases h1
  | initKilled k' f q o' hh hl =>
    obtain ⟨_, h1⟩ := hs.done _ _ hh rfl
    cases h1
  | sized k' f q o' hh =>
    obtain ⟨_, h1⟩ := hs.done _ _ hh rfl
    cases h1
  | joined k' f q o' hh =>
    have hk : k' = k := hs.alike.kind _ _ hh
    have ho := obj_of hh rfl
    subst ho hk
    refine ⟨⟨hS, hT, hA, hs.name, ?_, hs.done_update (h := h) (fun _ => rfl) (by simp [Phase.creator])⟩, ?_⟩
    · simp [upd, Obj.resize]
    · intro i hi
      simpa [upd, after] using hrez i hi
  | written k' f q o' m i v hh hi hl =>
    have ho := obj_of hh rfl
    subst ho
    refine ⟨⟨hS, hT, hA, hs.name, ?_, hs.done⟩, ?_⟩
    · simpa [upd, Obj.put] using hs.size
    · intro j hj
      by_cases hji : j = i
      · subst hji; simp [upd, Obj.put, after]
      · have : ¬ i = j := fun h => hji h.symm
        simp [upd, Obj.put, after, hji, this]
  | mapped k' f q o' m hh =>
    refine ⟨⟨hS, hT, hA, hs.name, hs.size, hs.done_update (h := h) (fun _ => rfl) ?_⟩, fun _ _ => rfl⟩
    intro hc
    obtain ⟨_, h1⟩ := hs.done _ _ hh hc
    cases h1
  | writeKilled k' f q o' m i v hh hi hl =>
    have hk : k' = k := hs.alike.kind _ _ hh
    have ho := obj_of hh rfl
    have := le_limit hp (s.obj o)
    have h2 := hs.size
    subst ho hk
    omega
  | construct | createFailed | createFound | attachFailed | attachMissed | attached
  | leaving | left | crashed =>
    exact ⟨⟨hS, hT, hA, hs.name, hs.size, hs.done_update (h := h) (fun _ => rfl)
      (by simp [Phase.creator])⟩, fun _ _ => rfl⟩

theorem Settled.run {k : Kind} {o : Nat} {s s' : Sys} {es : List (Nat × Act)} (hp : 0 < page)
    (hs : Settled k o s)
    (hn : NameKept es) (hk : OneKind k es) (hr : run page s es = some s') :
    Settled k o s' ∧
      ∀ i, i < k.len → (s'.obj o).data i = (lastWrite i es).getD ((s.obj o).data i) := by
  induction es generalizing s with
  | nil => cases hr; exact ⟨hs, fun _ _ => rfl⟩
  | cons e es ih =>
    simp only [SharedMemory.run] at hr
    split at hr
    · cases hr
    · rename_i t ht
      obtain ⟨h1, h2⟩ := hs.step hp (hn e (by simp)) (hk e (by simp)) (step_did ht)
      obtain ⟨h3, h4⟩ := ih h1 (fun x hx => hn x (by simp [hx])) (fun x hx => hk x (by simp [hx])) hr
      refine ⟨h3, fun i hi => ?_⟩
      rw [h4 i hi, h2 i hi]
      rw [lastWrite]
      cases lastWrite i es with
      | some v => rfl
      | none =>
        cases e.2 with
        | write j v => simp only [after]; split <;> rfl
        | _ => rfl

theorem NameKept.left {es fs : List (Nat × Act)} (h : NameKept (es ++ fs)) : NameKept es :=
  fun x hx => h x (by simp [hx])
theorem NameKept.right {es fs : List (Nat × Act)} (h : NameKept (es ++ fs)) : NameKept fs :=
  fun x hx => h x (by simp [hx])
theorem OneKind.left {k : Kind} {es fs : List (Nat × Act)} (h : OneKind k (es ++ fs)) :
    OneKind k es := fun x hx => h x (by simp [hx])
theorem OneKind.right {k : Kind} {es fs : List (Nat × Act)} (h : OneKind k (es ++ fs)) :
    OneKind k fs := fun x hx => h x (by simp [hx])

/-- When the creator's constructor has returned, no other is going to initialise the storage. -/
theorem settled {k : Kind} {es : List (Nat × Act)} {s : Sys} {h : Nat} (hn : NameKept es)
    (hk : OneKind k es) (hr : run page Sys.init es = some s) (he : Established s h) :
    ∃ o x f q, s.handle h = some ⟨x, .ready o true, f, q⟩ ∧ Settled k o s := by
  obtain ⟨⟨x, ph, f, q⟩, o, hx, hp⟩ := he
  obtain ⟨hS, hA⟩ := alike hk hr
  have hT := together hn hr
  cases hp
  refine ⟨o, x, f, q, hx, hS, hT, hA, hT _ _ _ hx rfl, hA.grown _ _ _ hx rfl rfl, ?_⟩
  intro j y hj hy
  obtain ⟨yk, yp, yf, yq⟩ := y
  have : yp.object = some o := by
    have hy' : ∃ o', yp.object = some o' := by
      cases yp <;> first | exact ⟨_, rfl⟩ | cases hy
    obtain ⟨o', ho'⟩ := hy'
    have h1 := hT _ _ _ hj ho'
    rw [hT _ _ _ hx rfl] at h1
    cases h1
    exact ho'
  have := hS.creator _ _ _ _ _ hj hx this rfl hy rfl
  subst this
  rw [hx] at hj
  cases hj
  exact ⟨o, rfl⟩

theorem read_ready {s : Sys} {h i o : Nat} {k : Kind} {m f q : Bool}
    (hx : s.handle h = some ⟨k, .ready o m, f, q⟩) (hi : i < k.len)
    (hl : i < (s.obj o).limit page) : read page s h i = .ok ((s.obj o).data i) := by
  simp [read, hx, hi, hl]

/-- Reading through a constructed handle of a settled storage. -/
theorem Settled.read {k : Kind} {o : Nat} {s : Sys} (hs : Settled k o s) (hp : 0 < page) {h i : Nat}
    (hc : Constructed s h) (hi : i < k.len) :
    read page s h i = .ok ((s.obj o).data i) := by
  obtain ⟨⟨x, ph, f, q⟩, o', m, hx, hph⟩ := hc
  cases hph
  have hk : x = k := hs.alike.kind _ _ hx
  have ho := hs.together _ _ _ hx rfl
  rw [hs.name] at ho
  cases ho
  subst hk
  have := le_limit hp (s.obj o)
  have h2 := hs.size
  exact read_ready hx hi (by omega)

/-- The descriptor and the mapping a handle has in each phase. -/
structure Held (s : Sys) : Prop where
  fd : ∀ h x, s.handle h = some x →
    (x.fd = true ↔ ∃ o m, x.phase = .opened o m ∨ x.phase = .mapped o m)
  mapping : ∀ h x, s.handle h = some x →
    (x.mapping = true ↔ (∃ o m, x.phase = .mapped o m ∨ x.phase = .ready o m) ∨
      (∃ o, x.phase = .sized o) ∨ x.phase = .failed .openError)

theorem openFlag_ne (e : Nat) : openFlag e ≠ .openError := by
  unfold openFlag; split <;> simp

theorem mapFlag_ne (e : Nat) : mapFlag e ≠ .openError := by
  unfold mapFlag; split <;> simp

theorem Held.update {s t : Sys} (hs : Held s) {h : Nat} {x : Handle}
    (hh : ∀ j, t.handle j = if j = h then some x else s.handle j)
    (hf : x.fd = true ↔ ∃ o m, x.phase = .opened o m ∨ x.phase = .mapped o m)
    (hm : x.mapping = true ↔ (∃ o m, x.phase = .mapped o m ∨ x.phase = .ready o m) ∨
      (∃ o, x.phase = .sized o) ∨ x.phase = .failed .openError) : Held t := by
  constructor <;> intro j y hj <;> rw [hh] at hj <;> split at hj
  · cases hj; exact hf
  · exact hs.fd _ _ hj
  · cases hj; exact hm
  · exact hs.mapping _ _ hj

theorem Held.step {s s' : Sys} {h : Nat} {a : Act} (hs : Held s) (hd : Did page s h a s') :
    Held s' := by
  cases hd with
  | unlinked => exact ⟨hs.fd, hs.mapping⟩
  | written => exact ⟨hs.fd, hs.mapping⟩
  | _ => exact hs.update (h := h) (fun _ => rfl) (by simp) (by simp [openFlag_ne, mapFlag_ne])

theorem held {es : List (Nat × Act)} {s : Sys} (hr : run page Sys.init es = some s) : Held s :=
  run_induct (P := fun _ => True) (fun _ _ _ _ hI _ hd => hI.step hd)
    ⟨by simp [Sys.init], by simp [Sys.init]⟩ (by simp) hr

end Ecl.SharedMemory
