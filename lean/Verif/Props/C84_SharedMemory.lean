import Verif.Lemmas.SharedMemoryWrites

/-!
# C84: handles on shared memory of one name share one storage

A history is the list of the actions (system calls, stores, crashes) of all handles of a name, in any
number of processes, in the order they happen; `page` is the page size of the system.
-/
set_option autoImplicit false
set_option linter.unusedSimpArgs false

namespace Ecl.Props
open Ecl.SharedMemory

/-- A storage type of two bytes, 5 and 6. -/
private def two : Kind := ⟨2, fun i => if i = 0 then 5 else 6⟩

/-- As long as the name is not taken away, all handles are connected to the same memory. -/
theorem C84_shared_partial (page : Nat) (es : List (Nat × Act)) (s : Sys) (hn : NameKept es)
    (hr : run page Sys.init es = some s) (h h' o o' : Nat) (hc : Connected s h o)
    (hc' : Connected s h' o') : o = o' := by
  obtain ⟨x, hx, ho⟩ := hc
  obtain ⟨y, hy, ho'⟩ := hc'
  have h1 := together hn hr _ _ _ hx ho
  have h2 := together hn hr _ _ _ hy ho'
  rw [h1] at h2
  cases h2
  rfl

/-- Two handles, the second of which attaches before the first is constructed. -/
example : ∃ s, run 4096 Sys.init ([(0, .construct two), (0, .create none)] ++ attachment 1 two) = some s ∧
    NameKept ([(0, .construct two), (0, .create none)] ++ attachment 1 two) ∧
    Connected s 0 0 ∧ Connected s 1 0 ∧ Constructed s 1 := by
  refine ⟨_, rfl, ?_, ⟨_, rfl, rfl⟩, ⟨_, rfl, rfl⟩, ⟨_, _, _, rfl, rfl⟩⟩
  simp [NameKept, attachment, Act.removes]

/-- Not in general: when the creator is destroyed while another handle is in use, handles made later
have another storage. -/
theorem C84_fails_shared : ∃ (es : List (Nat × Act)) (s : Sys), OneKind two es ∧
    run 4096 Sys.init es = some s ∧ Constructed s 1 ∧ Constructed s 2 ∧
    lastWrite 0 es = some 7 ∧ read 4096 s 1 0 = .ok 7 ∧ read 4096 s 2 0 = .ok 5 := by
  refine ⟨creation 0 two ++ attachment 1 two ++ [(0, .unmap), (0, .release)] ++ creation 2 two ++
    [(1, .write 0 7)], _, ?_, rfl, ⟨_, _, _, rfl, rfl⟩, ⟨_, _, _, rfl, rfl⟩, rfl, rfl, rfl⟩
  simp [OneKind, creation, attachment]

/-- The same happens, with all handles in use, when a constructor fails: it takes the name away from
the handles that have the memory. -/
theorem C84_fails_failed_constructor : ∃ (es : List (Nat × Act)) (s : Sys), OneKind two es ∧
    (∀ e ∈ es, e.2 ≠ .unlink ∧ e.2 ≠ .unmap ∧ e.2 ≠ .release) ∧
    run 4096 Sys.init es = some s ∧ Constructed s 0 ∧ Constructed s 2 ∧
    lastWrite 0 es = some 7 ∧ read 4096 s 0 0 = .ok 7 ∧ read 4096 s 2 0 = .ok 5 := by
  refine ⟨creation 0 two ++ [(1, .construct two), (1, .create none), (1, .attach none),
    (1, .map (some 12))] ++ creation 2 two ++ [(0, .write 0 7)], _, ?_, ?_, rfl, ⟨_, _, _, rfl, rfl⟩,
    ⟨_, _, _, rfl, rfl⟩, rfl, rfl, rfl⟩
  · simp [OneKind, creation]
  · simp [creation]

/-- Once the constructor of the creator has returned, and while the name is kept and all handles have
the same storage type, every handle reads in every byte the value stored last through any handle. -/
theorem C84_last_write_partial (page : Nat) (hp : 0 < page) (k : Kind) (es fs : List (Nat × Act))
    (s t : Sys) (h h' i : Nat) (hk : OneKind k (es ++ fs)) (hn : NameKept (es ++ fs))
    (hs : run page Sys.init es = some s) (ht : run page s fs = some t) (he : Established s h)
    (hc : Constructed t h') (hi : i < k.len) :
    ∃ v, read page s h i = .ok v ∧ read page t h' i = .ok ((lastWrite i fs).getD v) := by
  obtain ⟨o, x, f, q, hx, hS⟩ := settled hn.left hk.left hs he
  obtain ⟨hT, hw⟩ := hS.run hp hn.right hk.right ht
  refine ⟨_, hS.read hp ⟨_, _, _, hx, rfl⟩ hi, ?_⟩
  rw [hT.read hp hc hi, hw i hi]

/-- The first handle stores, the second attaches and stores, the first is destroyed up to the removal
of the name, the second reads. -/
example : ∃ s t, run 4096 Sys.init (creation 0 two) = some s ∧
    run 4096 s ([(0, .write 0 7)] ++ attachment 1 two ++ [(1, .write 1 8), (0, .unmap)]) = some t ∧
    Established s 0 ∧ Constructed t 1 ∧ read 4096 t 1 0 = .ok 7 ∧ read 4096 t 1 1 = .ok 8 ∧
    OneKind two (creation 0 two ++ ([(0, .write 0 7)] ++ attachment 1 two ++
      [(1, .write 1 8), (0, .unmap)])) ∧
    NameKept (creation 0 two ++ ([(0, .write 0 7)] ++ attachment 1 two ++
      [(1, .write 1 8), (0, .unmap)])) := by
  refine ⟨_, _, rfl, rfl, ⟨_, _, rfl, rfl⟩, ⟨_, _, _, rfl, rfl⟩, rfl, rfl, ?_, ?_⟩
  · simp [OneKind, creation, attachment]
  · simp [NameKept, creation, attachment, Act.removes]

/-- Before that a store can be lost: a handle that attaches while the creator is in its constructor is
constructed and stores, then the creator initialises the storage. -/
theorem C84_fails_last_write : ∃ (es fs : List (Nat × Act)) (s t : Sys), OneKind two (es ++ fs) ∧
    NameKept (es ++ fs) ∧ run 4096 Sys.init es = some s ∧ Constructed s 1 ∧
    run 4096 s fs = some t ∧ Constructed t 1 ∧
    lastWrite 0 fs = some 7 ∧ read 4096 t 1 0 = .ok 5 := by
  refine ⟨[(0, .construct two), (0, .create none)] ++ attachment 1 two,
    [(1, .write 0 7), (0, .map none), (0, .size true), (0, .init)], _, _, ?_, ?_, rfl,
    ⟨_, _, _, rfl, rfl⟩, rfl, ⟨_, _, _, rfl, rfl⟩, rfl, rfl⟩
  · simp [OneKind, attachment]
  · simp [NameKept, attachment, Act.removes]

set_option maxRecDepth 20000 in
/-- With different storage types the memory is cut: what a handle has stored is lost, and reading its
own storage kills its process. -/
theorem C84_fails_sizes : ∃ (k k' : Kind) (es : List (Nat × Act)) (s t : Sys),
    NameKept es ∧ run 4096 Sys.init es = some s ∧ Established s 0 ∧ lastWrite 1 es = some 7 ∧
    read 4096 s 0 1 = .ok 7 ∧ 4096 < k.len ∧ read 4096 s 0 4096 = .ok 9 ∧
    run 4096 s (attachment 1 k') = some t ∧ NameKept (attachment 1 k') ∧ Constructed t 0 ∧
    read 4096 t 0 1 = .ok 0 ∧ read 4096 t 0 4096 = .ub := by
  refine ⟨⟨4097, fun _ => 9⟩, ⟨1, fun _ => 9⟩, creation 0 ⟨4097, fun _ => 9⟩ ++ [(0, .write 1 7)], _, _,
    ?_, rfl, ⟨_, _, rfl, rfl⟩, rfl, rfl, by decide, rfl, rfl, ?_, ⟨_, _, _, rfl, rfl⟩, rfl, rfl⟩
  · simp [NameKept, creation, Act.removes]
  · simp [NameKept, attachment, Act.removes]

/-- A constructor that is not interrupted and finds no name makes a storage with the value of a
default constructed object, whatever happened before. -/
theorem C84_creation (page : Nat) (hp : 0 < page) (k : Kind) (s : Sys) (h : Nat)
    (hh : s.handle h = none) (hn : s.name = none) :
    ∃ t, run page s (creation h k) = some t ∧ Established t h ∧
      ∀ i, i < k.len → read page t h i = .ok (k.init i) := by
  have hl : k.len ≤ (k.len + page - 1) / page * page := le_limit hp ⟨k.len, fun _ => 0⟩
  simp only [creation, run, step, hh, hn, create, map, size, initialise, put_handle, Sys.put, upd,
    if_true, Obj.limit, Obj.resize, hl, eq_self]
  refine ⟨_, rfl, ⟨_, _, if_pos rfl, rfl⟩, fun i hi => ?_⟩
  have hl' : i < (k.len + page - 1) / page * page := Nat.lt_of_lt_of_le hi hl
  simp [SharedMemory.read, hi, hl', Obj.limit, upd_at]

/-- A constructor that is not interrupted and finds the name connects to the storage of the other
handles of its type and leaves it as it is. -/
theorem C84_attachment (page : Nat) (hp : 0 < page) (k : Kind) (es : List (Nat × Act)) (s : Sys)
    (h h' : Nat) (hn : NameKept es) (hk : OneKind k es) (hr : run page Sys.init es = some s)
    (hh : s.handle h = none) (he : Established s h') :
    ∃ t, run page s (attachment h k) = some t ∧ Constructed t h ∧ ¬ Established t h ∧
      (∀ g, Constructed s g → Constructed t g) ∧
      ∀ g, Constructed t g → ∀ i, i < k.len → read page t g i = read page s h' i := by
  obtain ⟨o, x, f, q, hx, hS⟩ := settled hn hk hr he
  have hne : h' ≠ h := by
    intro e; rw [e, hh] at hx; cases hx
  have hrun : ∃ t, run page s (attachment h k) = some t ∧
      t.handle = fun j => if j = h then some ⟨k, .ready o false, false, true⟩ else s.handle j := by
    simp only [attachment, run, step, hh, hS.name, create, attach, map, size, put_handle, Sys.put, upd,
      if_true, eq_self]
    refine ⟨_, rfl, ?_⟩
    funext j
    simp only [upd_at]
    split <;> rfl
  obtain ⟨t, ht, hth⟩ := hrun
  have hkA : OneKind k (attachment h k) := by simp [OneKind, attachment]
  have hnA : NameKept (attachment h k) := by simp [NameKept, attachment, Act.removes]
  obtain ⟨hT, hw⟩ := hS.run hp hnA hkA ht
  refine ⟨t, ht, ⟨_, _, _, by rw [hth]; simp; rfl, rfl⟩, ?_, ?_, ?_⟩
  · rintro ⟨y, o', hy, hyp⟩
    rw [hth] at hy
    simp at hy
    subst hy
    cases hyp
  · rintro g ⟨y, o', m, hy, hyp⟩
    refine ⟨y, o', m, ?_, hyp⟩
    rw [hth]
    simp only
    rw [if_neg (by intro e; rw [e, hh] at hy; cases hy)]
    exact hy
  · intro g hg i hi
    rw [hT.read hp hg hi, hS.read hp ⟨_, _, _, hx, rfl⟩ hi, hw i hi]
    rfl

example : ∃ s, run 4096 Sys.init (creation 0 two) = some s ∧ s.handle 1 = none ∧ Established s 0 ∧
    NameKept (creation 0 two) ∧ OneKind two (creation 0 two) := by
  refine ⟨_, rfl, rfl, ⟨_, _, rfl, rfl⟩, ?_, ?_⟩
  · simp [NameKept, creation, Act.removes]
  · simp [OneKind, creation]

/-- No memory has two handles that initialise it and remove its name, in any history. -/
theorem C84_one_creator (page : Nat) (es : List (Nat × Act)) (s : Sys)
    (hr : run page Sys.init es = some s) (h h' o : Nat) (x x' : Handle) (hx : s.handle h = some x)
    (hx' : s.handle h' = some x') (ho : x.phase.object = some o) (ho' : x'.phase.object = some o)
    (hc : x.phase.creator = true) (hc' : x'.phase.creator = true) : h = h' :=
  (sound hr).creator _ _ _ _ _ hx hx' ho ho' hc hc'

example : ∃ s x, run 4096 Sys.init (creation 0 two ++ attachment 1 two) = some s ∧
    s.handle 0 = some x ∧ x.phase.object = some 0 ∧ x.phase.creator = true :=
  ⟨_, _, rfl, rfl, rfl, rfl⟩

/-- The destructor of the creator removes the name, that of any other handle does not. -/
theorem C84_destruction (page : Nat) (s : Sys) (h : Nat) (hc : Constructed s h) :
    (Established s h → ∃ t, run page s [(h, .unmap), (h, .release)] = some t ∧ t.name = none ∧
      ¬ Constructed t h) ∧
    (¬ Established s h → ∃ t, run page s [(h, .unmap)] = some t ∧ t.name = s.name ∧
      ¬ Constructed t h) := by
  obtain ⟨⟨k, ph, f, q⟩, o, m, hx, hph⟩ := hc
  cases hph
  constructor
  · rintro ⟨y, o', hy, hyp⟩
    rw [hx] at hy
    cases hy
    cases hyp
    simp only [run, step, hx, unmap, put_handle, Sys.put, upd_at, if_true, eq_self]
    refine ⟨_, rfl, rfl, ?_⟩
    rintro ⟨z, o', m', hz, hzp⟩
    simp only [upd_at, if_true, eq_self] at hz
    cases hz
    cases hzp
  · intro hne
    have : m = false := by
      cases m
      · rfl
      · exact absurd ⟨_, _, hx, rfl⟩ hne
    subst this
    simp only [run, step, hx, unmap, put_handle, Sys.put, upd_at, if_true, eq_self]
    refine ⟨_, rfl, rfl, ?_⟩
    rintro ⟨z, o', m', hz, hzp⟩
    simp only [upd_at, if_true, eq_self] at hz
    cases hz
    cases hzp

/-- A creator that crashes inside its constructor leaves the name behind: later handles find a storage
that was never initialised, and removing all of them does not remove the name. -/
theorem C84_fails_crash : ∃ (es fs : List (Nat × Act)) (s t : Sys), OneKind two es ∧
    run 4096 Sys.init es = some s ∧ Constructed s 1 ∧ lastWrite 0 es = none ∧
    read 4096 s 1 0 = .ok 0 ∧ two.init 0 ≠ 0 ∧ run 4096 s fs = some t ∧ t.name ≠ none ∧
    (∀ h o, ¬ Connected t h o) := by
  refine ⟨[(0, .construct two), (0, .create none), (0, .crash)] ++ attachment 1 two, [(1, .unmap)],
    _, _, ?_, rfl, ⟨_, _, _, rfl, rfl⟩, rfl, rfl, by decide, rfl, ?_, ?_⟩
  · simp [OneKind, attachment]
  · intro h; cases h
  · rintro h o ⟨x, hx, ho⟩
    simp only [unmap, put_handle, Sys.put, upd_at, size, attach, create, map, Sys.init, if_true] at hx
    split at hx
    · cases hx; cases ho
    · split at hx
      · cases hx; cases ho
      · cases hx

/-- A handle that is constructed has its mapping and no descriptor; one that is destroyed has neither;
a constructor that fails leaves no descriptor, and no mapping unless it was `ftruncate` that failed. -/
theorem C84_resources_partial (page : Nat) (es : List (Nat × Act)) (s : Sys)
    (hr : run page Sys.init es = some s) (h : Nat) (x : Handle) (hx : s.handle h = some x) :
    (∀ o m, x.phase = .ready o m → x.fd = false ∧ x.mapping = true) ∧
    (x.phase = .gone → x.fd = false ∧ x.mapping = false) ∧
    (∀ f, x.phase = .failed f → x.fd = false ∧ (f ≠ .openError → x.mapping = false)) := by
  have h1 := (held hr).fd _ _ hx
  have h2 := (held hr).mapping _ _ hx
  refine ⟨?_, ?_, ?_⟩
  · intro o m hp; simp [hp] at h1 h2; exact ⟨h1, h2⟩
  · intro hp; simp [hp] at h1 h2; exact ⟨h1, h2⟩
  · intro f hp
    simp [hp] at h1 h2
    refine ⟨h1, fun hf => ?_⟩
    cases hm : x.mapping
    · rfl
    · exact absurd (h2.1 hm) hf

example : ∃ s, run 4096 Sys.init (creation 0 two ++ [(1, .construct two), (1, .create (some 24))]) = some s ∧
    s.handle 1 = some ⟨two, .failed .outOfResourcesError, false, false⟩ :=
  ⟨_, rfl, rfl⟩

/-- When `ftruncate` fails the mapping stays. -/
theorem C84_fails_resources : ∃ (es : List (Nat × Act)) (s : Sys) (x : Handle) (f : Flag),
    run 4096 Sys.init es = some s ∧ s.handle 0 = some x ∧ x.phase = .failed f ∧ x.mapping = true :=
  ⟨[(0, .construct two), (0, .create none), (0, .map none), (0, .size false)], _, _, _, rfl, rfl, rfl, rfl⟩

/-- The error of a failing `mmap` is reported as long as the name is there. -/
theorem C84_error_partial (page : Nat) (s t : Sys) (h : Nat) (e : Nat)
    (ht : step page s h (.map (some e)) = some t) (hn : s.name ≠ none) :
    ∃ x f, t.handle h = some x ∧ x.phase = .failed f ∧
      (e = 1 ∨ e = 13 → f = .permissionsError) ∧ (e = 11 ∨ e = 12 → f = .memoryError) ∧
      (e = 9 ∨ e = 22 → f = .invalidArgError) ∧ (e = 23 → f = .outOfResourcesError) ∧
      (e = 19 → f = .notSupportedError) := by
  have hd := step_did ht
  cases hd with
  | mapFailed k f q o m _ hh =>
    refine ⟨_, _, by simp [put_handle]; rfl, rfl, ?_⟩
    have : s.name.isSome = true := by
      cases hs : s.name
      · exact absurd hs hn
      · rfl
    simp only [errnoAfterUnlink, this, if_true]
    refine ⟨?_, ?_, ?_, ?_, ?_⟩
    · rintro (rfl | rfl) <;> rfl
    · rintro (rfl | rfl) <;> rfl
    · rintro (rfl | rfl) <;> rfl
    · rintro rfl; rfl
    · rintro rfl; rfl

example : ∃ s t, run 4096 Sys.init [(0, .construct two), (0, .create none)] = some s ∧
    step 4096 s 0 (.map (some 12)) = some t ∧ s.name ≠ none :=
  ⟨_, _, rfl, rfl, by intro h; cases h⟩

/-- Otherwise it is not: the clean-up overwrites the error before it is looked at. -/
theorem C84_fails_error : ∃ (es : List (Nat × Act)) (s t : Sys) (x : Handle),
    run 4096 Sys.init es = some s ∧ step 4096 s 1 (.map (some 12)) = some t ∧
    t.handle 1 = some x ∧ x.phase = .failed .unknownError :=
  ⟨creation 0 two ++ [(1, .construct two), (1, .create none), (1, .attach none), (0, .unlink)],
    _, _, _, rfl, rfl, rfl, rfl⟩

/-- A constructor whose calls succeed can still fail: the name it has found may be gone when it opens
it. -/
theorem C84_fails_attach : ∃ (es : List (Nat × Act)) (s : Sys) (x : Handle),
    (∀ e ∈ es, e.2 ≠ .unlink ∧ e.2 ≠ .crash) ∧
    run 4096 Sys.init es = some s ∧ s.handle 1 = some x ∧ x.phase = .failed .invalidArgError := by
  refine ⟨creation 0 two ++ [(1, .construct two), (1, .create none), (0, .unmap), (0, .release),
    (1, .attach none)], _, _, ?_, rfl, rfl, rfl⟩
  simp [creation]

end Ecl.Props
