import Verif.Spec.SharedMemory

/-!
# Lemmas on shared memory
-/
set_option autoImplicit false
set_option linter.unusedSimpArgs false

namespace Ecl.SharedMemory

variable {page : Nat}

/-- What an action does. -/
inductive Did (page : Nat) (s : Sys) (h : Nat) : Act → Sys → Prop
  | construct (k : Kind) : s.handle h = none →
      Did page s h (.construct k) (s.put h ⟨k, .creating, false, false⟩)
  | createFailed (k : Kind) (f q : Bool) (e : Nat) : s.handle h = some ⟨k, .creating, f, q⟩ →
      e ≠ eexist → Did page s h (.create (some e)) (s.put h ⟨k, .failed (openFlag e), false, false⟩)
  | createFound (k : Kind) (f q : Bool) (o : Nat) : s.handle h = some ⟨k, .creating, f, q⟩ →
      s.name = some o → Did page s h (.create none) (s.put h ⟨k, .opening, false, false⟩)
  | created (k : Kind) (f q : Bool) : s.handle h = some ⟨k, .creating, f, q⟩ →
      s.name = none → Did page s h (.create none)
        { (s.put h ⟨k, .opened s.fresh true, true, false⟩) with
          name := some s.fresh
          obj := upd s.obj s.fresh ⟨0, fun _ => 0⟩
          fresh := s.fresh + 1 }
  | attachFailed (k : Kind) (f q : Bool) (e : Nat) : s.handle h = some ⟨k, .opening, f, q⟩ →
      Did page s h (.attach (some e)) (s.put h ⟨k, .failed (openFlag e), false, false⟩)
  | attachMissed (k : Kind) (f q : Bool) : s.handle h = some ⟨k, .opening, f, q⟩ →
      s.name = none → Did page s h (.attach none) (s.put h ⟨k, .failed (openFlag 2), false, false⟩)
  | attached (k : Kind) (f q : Bool) (o : Nat) : s.handle h = some ⟨k, .opening, f, q⟩ →
      s.name = some o → Did page s h (.attach none) (s.put h ⟨k, .opened o false, true, false⟩)
  | mapped (k : Kind) (f q : Bool) (o : Nat) (m : Bool) : s.handle h = some ⟨k, .opened o m, f, q⟩ →
      Did page s h (.map none) (s.put h ⟨k, .mapped o m, true, true⟩)
  | mapFailed (k : Kind) (f q : Bool) (o : Nat) (m : Bool) (e : Nat) :
      s.handle h = some ⟨k, .opened o m, f, q⟩ →
      Did page s h (.map (some e))
        { (s.put h ⟨k, .failed (mapFlag (errnoAfterUnlink s.name e)), false, false⟩) with name := none }
  | sized (k : Kind) (f q : Bool) (o : Nat) : s.handle h = some ⟨k, .mapped o true, f, q⟩ →
      Did page s h (.size true)
        { (s.put h ⟨k, .sized o, false, true⟩) with obj := upd s.obj o ((s.obj o).resize k.len) }
  | joined (k : Kind) (f q : Bool) (o : Nat) : s.handle h = some ⟨k, .mapped o false, f, q⟩ →
      Did page s h (.size true)
        { (s.put h ⟨k, .ready o false, false, true⟩) with
          obj := upd s.obj o ((s.obj o).resize k.len) }
  | sizeFailed (k : Kind) (f q : Bool) (o : Nat) (m : Bool) : s.handle h = some ⟨k, .mapped o m, f, q⟩ →
      Did page s h (.size false)
        { (s.put h ⟨k, .failed .openError, false, true⟩) with name := none }
  | initialised (k : Kind) (f q : Bool) (o : Nat) : s.handle h = some ⟨k, .sized o, f, q⟩ →
      k.len ≤ (s.obj o).limit page →
      Did page s h .init { (s.put h ⟨k, .ready o true, false, true⟩) with
        obj := upd s.obj o
          ⟨(s.obj o).size, fun i => if i < k.len then k.init i else (s.obj o).data i⟩ }
  | initKilled (k : Kind) (f q : Bool) (o : Nat) : s.handle h = some ⟨k, .sized o, f, q⟩ →
      ¬ k.len ≤ (s.obj o).limit page → Did page s h .init (s.put h ⟨k, .killed, false, false⟩)
  | written (k : Kind) (f q : Bool) (o : Nat) (m : Bool) (i : Nat) (v : UInt8) :
      s.handle h = some ⟨k, .ready o m, f, q⟩ → i < k.len → i < (s.obj o).limit page →
      Did page s h (.write i v) { s with obj := upd s.obj o ((s.obj o).put i v) }
  | writeKilled (k : Kind) (f q : Bool) (o : Nat) (m : Bool) (i : Nat) (v : UInt8) :
      s.handle h = some ⟨k, .ready o m, f, q⟩ → i < k.len → ¬ i < (s.obj o).limit page →
      Did page s h (.write i v) (s.put h ⟨k, .killed, false, false⟩)
  | unlinked (k : Kind) (f q : Bool) (o : Nat) (m : Bool) : s.handle h = some ⟨k, .ready o m, f, q⟩ →
      Did page s h .unlink { s with name := none }
  | leaving (k : Kind) (f q : Bool) (o : Nat) : s.handle h = some ⟨k, .ready o true, f, q⟩ →
      Did page s h .unmap (s.put h ⟨k, .leaving, false, false⟩)
  | left (k : Kind) (f q : Bool) (o : Nat) : s.handle h = some ⟨k, .ready o false, f, q⟩ →
      Did page s h .unmap (s.put h ⟨k, .gone, false, false⟩)
  | released (k : Kind) (f q : Bool) : s.handle h = some ⟨k, .leaving, f, q⟩ →
      Did page s h .release { (s.put h ⟨k, .gone, false, false⟩) with name := none }
  | crashed (x : Handle) : s.handle h = some x → x.phase.alive = true →
      Did page s h .crash (s.put h ⟨x.kind, .killed, false, false⟩)

theorem step_did {s s' : Sys} {h : Nat} {a : Act} (hs : step page s h a = some s') :
    Did page s h a s' := by
  unfold step at hs
  split at hs
  case h_1 heq => cases hs; exact .construct _ heq
  case h_2 k f q heq =>
    rename_i err
    cases err with
    | some e =>
      simp only [create] at hs
      split at hs
      · cases hs
      · cases hs; exact .createFailed _ _ _ _ heq (by assumption)
    | none =>
      simp only [create] at hs
      split at hs <;> cases hs
      · exact .createFound _ _ _ _ heq (by assumption)
      · exact .created _ _ _ heq (by assumption)
  case h_3 k f q heq =>
    rename_i err
    cases hs
    cases err with
    | some e => exact .attachFailed _ _ _ _ heq
    | none =>
      simp only [attach]
      split
      · exact .attachMissed _ _ _ heq (by assumption)
      · exact .attached _ _ _ _ heq (by assumption)
  case h_4 k o m f q heq =>
    rename_i err
    cases hs
    cases err with
    | some e => exact .mapFailed _ _ _ _ _ _ heq
    | none => exact .mapped _ _ _ _ _ heq
  case h_5 k o m f q heq =>
    rename_i ok
    cases hs
    cases ok with
    | false => exact .sizeFailed _ _ _ _ _ heq
    | true =>
      cases m with
      | true => exact .sized _ _ _ _ heq
      | false => exact .joined _ _ _ _ heq
  case h_6 k o f q heq =>
    cases hs
    unfold initialise
    split
    · exact .initialised _ _ _ _ heq (by assumption)
    · exact .initKilled _ _ _ _ heq (by assumption)
  case h_7 k o m f q heq =>
    split at hs
    · cases hs
      unfold write
      split
      · exact .written _ _ _ _ _ _ _ heq (by assumption) (by assumption)
      · exact .writeKilled _ _ _ _ _ _ _ heq (by assumption) (by assumption)
    · cases hs
  case h_8 heq => cases hs; exact .unlinked _ _ _ _ _ heq
  case h_9 k o m f q heq =>
    cases hs
    cases m with
    | true => exact .leaving _ _ _ _ heq
    | false => exact .left _ _ _ _ heq
  case h_10 heq => cases hs; exact .released _ _ _ heq
  case h_11 x heq =>
    split at hs
    · cases hs; exact .crashed _ heq (by assumption)
    · cases hs
  case h_12 => cases hs

theorem run_append {s : Sys} {es fs : List (Nat × Act)} {s' : Sys} :
    run page s (es ++ fs) = some s' ↔ ∃ t, run page s es = some t ∧ run page t fs = some s' := by
  induction es generalizing s with
  | nil => simp [run]
  | cons e es ih =>
    simp only [List.cons_append, run]
    cases step page s e.1 e.2 with
    | none => simp
    | some t => simpa using ih

/-- A property of states kept by every action allowed by `P` holds after every history of such. -/
theorem run_induct {I : Sys → Prop} {P : Nat × Act → Prop}
    (hI : ∀ s s' h a, I s → P (h, a) → Did page s h a s' → I s') {s s' : Sys}
    {es : List (Nat × Act)} (h0 : I s) (hP : ∀ e ∈ es, P e) (hr : run page s es = some s') : I s' := by
  induction es generalizing s with
  | nil => cases hr; exact h0
  | cons e es ih =>
    simp only [run] at hr
    split at hr
    · cases hr
    · rename_i t ht
      exact ih (hI _ _ _ _ h0 (hP e (by simp)) (step_did ht)) (fun x hx => hP x (by simp [hx])) hr

theorem upd_at {α : Type} (f : Nat → α) (k : Nat) (v : α) (x : Nat) :
    upd f k v x = if x = k then v else f x := rfl

theorem put_handle (s : Sys) (h : Nat) (x : Handle) (j : Nat) :
    (s.put h x).handle j = if j = h then some x else s.handle j := rfl

/-- Objects in use have been created, and every object has one creator. -/
structure Sound (s : Sys) : Prop where
  named : ∀ o, s.name = some o → o < s.fresh
  used : ∀ h x o, s.handle h = some x → x.phase.object = some o → o < s.fresh
  creator : ∀ h h' x x' o, s.handle h = some x → s.handle h' = some x' →
    x.phase.object = some o → x'.phase.object = some o →
    x.phase.creator = true → x'.phase.creator = true → h = h'

theorem Sound.init : Sound Sys.init :=
  ⟨by simp [Sys.init], by simp [Sys.init], by simp [Sys.init]⟩

/-- Replacing a handle by one that is connected to nothing new. -/
theorem Sound.update {s t : Sys} (hs : Sound s) {h : Nat} {x : Handle}
    (hname : ∀ o, t.name = some o → o < t.fresh) (hfresh : s.fresh ≤ t.fresh)
    (hh : ∀ j, t.handle j = if j = h then some x else s.handle j)
    (hx : ∀ o, x.phase.object = some o → o < t.fresh ∧ (x.phase.creator = true →
      (∃ y, s.handle h = some y ∧ y.phase.object = some o ∧ y.phase.creator = true) ∨
      s.fresh ≤ o)) : Sound t := by
  refine ⟨hname, ?_, ?_⟩
  · intro j y o hj ho
    rw [hh] at hj
    split at hj
    · cases hj; exact (hx o ho).1
    · exact lt_of_lt_of_le' (hs.used _ _ _ hj ho) hfresh
  · intro i j y z o hi hj hyo hzo hy hz
    rw [hh] at hi hj
    have key : ∀ {i : Nat} {y : Handle}, i ≠ h → s.handle i = some y → y.phase.object = some o →
        y.phase.creator = true → x.phase.object = some o → x.phase.creator = true → False := by
      intro i y hne hi hyo hy hxo hxc
      rcases (hx o hxo).2 hxc with ⟨w, hw, hwo, hwc⟩ | hge
      · exact hne (hs.creator _ _ _ _ _ hi hw hyo hwo hy hwc)
      · have := hs.used _ _ _ hi hyo
        omega
    split at hi <;> split at hj
    · omega
    · cases hi
      exact absurd (key (by assumption) hj hzo hz hyo hy) id
    · cases hj
      exact absurd (key (by assumption) hi hyo hy hzo hz) id
    · exact hs.creator _ _ _ _ _ hi hj hyo hzo hy hz
where
  lt_of_lt_of_le' {a b c : Nat} (h : a < b) (h' : b ≤ c) : a < c := Nat.lt_of_lt_of_le h h'

theorem Sound.step {s s' : Sys} {h : Nat} {a : Act} (hs : Sound s) (hd : Did page s h a s') :
    Sound s' := by
  cases hd with
  | construct k hh =>
    exact hs.update (h := h) hs.named (Nat.le_refl _) (fun _ => rfl) (by simp [Phase.object])
  | createFailed k f q e hh he =>
    exact hs.update (h := h) hs.named (Nat.le_refl _) (fun _ => rfl) (by simp [Phase.object])
  | createFound k f q o hh ho =>
    exact hs.update (h := h) hs.named (Nat.le_refl _) (fun _ => rfl) (by simp [Phase.object])
  | created k f q hh ho =>
    refine hs.update (h := h) ?_ (Nat.le_succ _) (fun _ => rfl) ?_
    · intro o ho'; cases ho'; exact Nat.lt_succ_self _
    · intro o ho'; cases ho'; exact ⟨Nat.lt_succ_self _, fun _ => .inr (Nat.le_refl _)⟩
  | attachFailed k f q e hh =>
    exact hs.update (h := h) hs.named (Nat.le_refl _) (fun _ => rfl) (by simp [Phase.object])
  | attachMissed k f q hh ho =>
    exact hs.update (h := h) hs.named (Nat.le_refl _) (fun _ => rfl) (by simp [Phase.object])
  | attached k f q o hh ho =>
    refine hs.update (h := h) hs.named (Nat.le_refl _) (fun _ => rfl) ?_
    intro o' ho'
    cases ho'
    exact ⟨hs.named _ ho, fun hc => by cases hc⟩
  | mapped k f q o m hh =>
    refine hs.update (h := h) hs.named (Nat.le_refl _) (fun _ => rfl) ?_
    intro o' ho'
    cases ho'
    exact ⟨hs.used _ _ _ hh rfl, fun hc => .inl ⟨_, hh, rfl, hc⟩⟩
  | mapFailed k f q o m e hh =>
    exact hs.update (h := h) (by simp) (Nat.le_refl _) (fun _ => rfl) (by simp [Phase.object])
  | sized k f q o hh =>
    refine hs.update (h := h) hs.named (Nat.le_refl _) (fun _ => rfl) ?_
    intro o' ho'
    cases ho'
    exact ⟨hs.used _ _ _ hh rfl, fun hc => .inl ⟨_, hh, rfl, rfl⟩⟩
  | joined k f q o hh =>
    refine hs.update (h := h) hs.named (Nat.le_refl _) (fun _ => rfl) ?_
    intro o' ho'
    cases ho'
    exact ⟨hs.used _ _ _ hh rfl, fun hc => by cases hc⟩
  | sizeFailed k f q o m hh =>
    exact hs.update (h := h) (by simp) (Nat.le_refl _) (fun _ => rfl) (by simp [Phase.object])
  | initialised k f q o hh hl =>
    refine hs.update (h := h) hs.named (Nat.le_refl _) (fun _ => rfl) ?_
    intro o' ho'
    cases ho'
    exact ⟨hs.used _ _ _ hh rfl, fun hc => .inl ⟨_, hh, rfl, rfl⟩⟩
  | initKilled k f q o hh hl =>
    exact hs.update (h := h) hs.named (Nat.le_refl _) (fun _ => rfl) (by simp [Phase.object])
  | written k f q o m i v hh hi hl => exact ⟨hs.named, hs.used, hs.creator⟩
  | writeKilled k f q o m i v hh hi hl =>
    exact hs.update (h := h) hs.named (Nat.le_refl _) (fun _ => rfl) (by simp [Phase.object])
  | unlinked k f q o m hh => exact ⟨by simp, hs.used, hs.creator⟩
  | leaving k f q o hh =>
    exact hs.update (h := h) hs.named (Nat.le_refl _) (fun _ => rfl) (by simp [Phase.object])
  | left k f q o hh =>
    exact hs.update (h := h) hs.named (Nat.le_refl _) (fun _ => rfl) (by simp [Phase.object])
  | released k f q hh =>
    exact hs.update (h := h) (by simp) (Nat.le_refl _) (fun _ => rfl) (by simp [Phase.object])
  | crashed x hh hx =>
    exact hs.update (h := h) hs.named (Nat.le_refl _) (fun _ => rfl) (by simp [Phase.object])

theorem sound {es : List (Nat × Act)} {s : Sys} (hr : run page Sys.init es = some s) : Sound s :=
  run_induct (P := fun _ => True) (fun _ _ _ _ hI _ hd => hI.step hd) Sound.init (by simp) hr

/-- Every connected handle is connected to what the name stands for. -/
def Together (s : Sys) : Prop :=
  ∀ h x o, s.handle h = some x → x.phase.object = some o → s.name = some o

theorem Together.update {s t : Sys} (hs : Together s) {h : Nat} {x : Handle}
    (hname : t.name = s.name) (hh : ∀ j, t.handle j = if j = h then some x else s.handle j)
    (hx : ∀ o, x.phase.object = some o → s.name = some o) : Together t := by
  intro j y o hj ho
  rw [hname]
  rw [hh] at hj
  split at hj
  · cases hj; exact hx o ho
  · exact hs _ _ _ hj ho

theorem Together.step {s s' : Sys} {h : Nat} {a : Act} (hs : Together s) (ha : a.removes = false)
    (hd : Did page s h a s') : Together s' := by
  cases hd with
  | mapFailed | sizeFailed | unlinked | released => cases ha
  | created k f q hh ho =>
    intro j y o hj hy
    rw [show Sys.handle _ j = if j = h then some (⟨k, .opened s.fresh true, true, false⟩ : Handle)
      else s.handle j from rfl] at hj
    split at hj
    · cases hj; cases hy; rfl
    · have := hs _ _ _ hj hy
      rw [ho] at this
      cases this
  | attached k f q o hh ho =>
    exact hs.update (h := h) rfl (fun _ => rfl) (by intro o' ho'; cases ho'; exact ho)
  | mapped k f q o m hh =>
    exact hs.update (h := h) rfl (fun _ => rfl) (by intro o' ho'; cases ho'; exact hs _ _ _ hh rfl)
  | sized k f q o hh =>
    exact hs.update (h := h) rfl (fun _ => rfl) (by intro o' ho'; cases ho'; exact hs _ _ _ hh rfl)
  | joined k f q o hh =>
    exact hs.update (h := h) rfl (fun _ => rfl) (by intro o' ho'; cases ho'; exact hs _ _ _ hh rfl)
  | initialised k f q o hh hl =>
    exact hs.update (h := h) rfl (fun _ => rfl) (by intro o' ho'; cases ho'; exact hs _ _ _ hh rfl)
  | written k f q o m i v hh hi hl => exact hs
  | _ => exact hs.update (h := h) rfl (fun _ => rfl) (by simp [Phase.object])

theorem together {es : List (Nat × Act)} {s : Sys} (hk : NameKept es)
    (hr : run page Sys.init es = some s) : Together s :=
  run_induct (P := fun e => e.2.removes = false) (fun _ _ _ _ hI ha hd => hI.step ha hd)
    (by simp [Together, Sys.init]) hk hr

/-- The phases in which the constructor has given the object its size. -/
def Phase.grown : Phase → Bool
  | .sized _ | .ready _ _ => true
  | _ => false

/-- All handles have kind `k`, and objects have its size or none. -/
structure Alike (k : Kind) (s : Sys) : Prop where
  kind : ∀ h x, s.handle h = some x → x.kind = k
  empty : ∀ o, s.fresh ≤ o → (s.obj o).size = 0
  sizes : ∀ o, (s.obj o).size = 0 ∨ (s.obj o).size = k.len
  grown : ∀ h x o, s.handle h = some x → x.phase.object = some o → x.phase.grown = true →
    (s.obj o).size = k.len

theorem Alike.update {k : Kind} {s t : Sys} (hs : Alike k s) {h : Nat} {x : Handle}
    (hh : ∀ j, t.handle j = if j = h then some x else s.handle j) (hk : x.kind = k)
    (hobj : t.obj = s.obj) (hf : t.fresh = s.fresh)
    (hx : ∀ o, x.phase.object = some o → x.phase.grown = true → (s.obj o).size = k.len) :
    Alike k t := by
  refine ⟨?_, ?_, ?_, ?_⟩
  · intro j y hj
    rw [hh] at hj
    split at hj
    · cases hj; exact hk
    · exact hs.kind _ _ hj
  · rw [hobj, hf]; exact hs.empty
  · rw [hobj]; exact hs.sizes
  · intro j y o hj ho hg
    rw [hobj]
    rw [hh] at hj
    split at hj
    · cases hj; exact hx o ho hg
    · exact hs.grown _ _ _ hj ho hg

/-- An action that makes no object bigger or smaller than `k.len`. -/
theorem Alike.resize {k : Kind} {s t : Sys} (hs : Alike k s) {o h : Nat} {x : Handle}
    (hh : ∀ j, t.handle j = if j = h then some x else s.handle j) (hk : x.kind = k)
    (hf : t.fresh = s.fresh) (ho : o < s.fresh) (hox : x.phase.object = some o)
    (hobj : ∀ j, j ≠ o → t.obj j = s.obj j) (hsize : (t.obj o).size = k.len) :
    Alike k t := by
  refine ⟨?_, ?_, ?_, ?_⟩
  · intro j y hj
    rw [hh] at hj
    split at hj
    · cases hj; exact hk
    · exact hs.kind _ _ hj
  · intro j hj
    rw [hf] at hj
    rw [hobj j (by omega)]
    exact hs.empty j hj
  · intro j
    by_cases hj : j = o
    · rw [hj]; exact .inr hsize
    · rw [hobj j hj]; exact hs.sizes j
  · intro i y j hi hy hg
    by_cases hj : j = o
    · rw [hj]; exact hsize
    · rw [hobj j hj]
      rw [hh] at hi
      split at hi
      · cases hi
        rw [hox] at hy
        cases hy
        exact absurd rfl hj
      · exact hs.grown _ _ _ hi hy hg

theorem Alike.step {k : Kind} {s s' : Sys} {h : Nat} {a : Act} (hs : Alike k s) (hS : Sound s)
    (ha : ∀ k', a = .construct k' → k' = k) (hd : Did page s h a s') : Alike k s' := by
  have hkind : ∀ {x}, s.handle h = some x → x.kind = k := fun hx => hs.kind _ _ hx
  cases hd with
  | construct k' hh =>
    exact hs.update (h := h) (fun _ => rfl) (ha _ rfl) rfl rfl (by simp [Phase.object])
  | created k' f q hh ho =>
    refine ⟨?_, ?_, ?_, ?_⟩
    · intro j y hj
      rw [show Sys.handle _ j = if j = h then some (⟨k', .opened s.fresh true, true, false⟩ : Handle)
        else s.handle j from rfl] at hj
      split at hj
      · cases hj; have := hkind hh; exact this
      · exact hs.kind _ _ hj
    · intro o ho
      show (upd s.obj s.fresh ⟨0, fun _ => 0⟩ o).size = 0
      have ho' : s.fresh + 1 ≤ o := ho
      rw [upd, if_neg (by omega)]
      exact hs.empty _ (by omega)
    · intro o
      show (upd s.obj s.fresh ⟨0, fun _ => 0⟩ o).size = 0 ∨
        (upd s.obj s.fresh ⟨0, fun _ => 0⟩ o).size = k.len
      unfold upd
      split
      · exact .inl rfl
      · exact hs.sizes o
    · intro j y o hj hy hg
      rw [show Sys.handle _ j = if j = h then some (⟨k', .opened s.fresh true, true, false⟩ : Handle)
        else s.handle j from rfl] at hj
      split at hj
      · cases hj; cases hg
      · show (upd s.obj s.fresh ⟨0, fun _ => 0⟩ o).size = _
        have := hS.used _ _ _ hj hy
        rw [upd, if_neg (by omega)]
        exact hs.grown _ _ _ hj hy hg
  | attached k' f q o hh ho =>
    exact hs.update (h := h) (fun _ => rfl) (by have := hkind hh; exact this) rfl rfl (by simp [Phase.grown])
  | mapped k' f q o m hh =>
    exact hs.update (h := h) (fun _ => rfl) (by have := hkind hh; exact this) rfl rfl (by simp [Phase.grown])
  | sized k' f q o hh =>
    have hk : k' = k := hkind hh
    exact hs.resize (o := o) (h := h) (fun _ => rfl) hk rfl (hS.used _ _ _ hh rfl) rfl
      (fun j hj => if_neg hj) (by simp [upd, Obj.resize, hk])
  | joined k' f q o hh =>
    have hk : k' = k := hkind hh
    exact hs.resize (o := o) (h := h) (fun _ => rfl) hk rfl (hS.used _ _ _ hh rfl) rfl
      (fun j hj => if_neg hj) (by simp [upd, Obj.resize, hk])
  | initialised k' f q o hh hl =>
    exact hs.resize (o := o) (h := h) (fun _ => rfl) (by have := hkind hh; exact this) rfl (hS.used _ _ _ hh rfl) rfl
      (fun j hj => if_neg hj) (by simpa [upd] using hs.grown _ _ _ hh rfl rfl)
  | written k' f q o m i v hh hi hl =>
    have hx : ∀ j, s.handle j = if j = h then some (⟨k', .ready o m, f, q⟩ : Handle) else s.handle j := by
      intro j
      split
      · rename_i hj; rw [hj]; exact hh
      · rfl
    exact hs.resize (o := o) (h := h) hx (by have := hkind hh; exact this) rfl (hS.used _ _ _ hh rfl) rfl
      (fun j hj => if_neg hj) (by simpa [upd, Obj.put] using hs.grown _ _ _ hh rfl rfl)
  | unlinked k' f q o m hh => exact ⟨hs.kind, hs.empty, hs.sizes, hs.grown⟩
  | crashed x hh hx =>
    exact hs.update (h := h) (fun _ => rfl) (by have := hkind hh; exact this) rfl rfl (by simp [Phase.object])
  | createFailed k f q e hh | createFound k f q e hh | attachFailed k f q e hh | attachMissed k f q hh
  | mapFailed k f q o m e hh | sizeFailed k f q o m hh | initKilled k f q o hh
  | writeKilled k f q o m i v hh | leaving k f q o hh | left k f q o hh | released k f q hh =>
    exact hs.update (h := h) (fun _ => rfl) (by have := hkind hh; exact this) rfl rfl (by simp [Phase.object])

theorem alike {k : Kind} {es : List (Nat × Act)} {s : Sys} (hk : OneKind k es)
    (hr : run page Sys.init es = some s) : Sound s ∧ Alike k s :=
  run_induct (I := fun s => Sound s ∧ Alike k s) (P := fun e => ∀ k', e.2 = .construct k' → k' = k)
    (fun _ _ _ _ hI ha hd => ⟨hI.1.step hd, hI.2.step hI.1 ha hd⟩)
    ⟨Sound.init, by simp [Sys.init], by simp [Sys.init], by simp [Sys.init], by simp [Sys.init]⟩ hk hr

theorem le_limit (hp : 0 < page) (o : Obj) : o.size ≤ o.limit page := by
  unfold Obj.limit
  have h1 := Nat.div_add_mod (o.size + page - 1) page
  have h2 := Nat.mod_lt (o.size + page - 1) hp
  rw [Nat.mul_comm] at h1
  omega

end Ecl.SharedMemory
