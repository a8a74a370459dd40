import Verif.Model.MutexCount
import Mathlib.Algebra.BigOperators.Group.Finset.Basic
import Mathlib.Data.Fintype.BigOperators

/-!
# Invariants of the counter of a mutex (helper lemmas of C156)
-/
set_option autoImplicit false

namespace Ecl.MutexCount

variable {N : Nat}

/-- Has the thread the mutex? -/
def has : Pc → Bool
  | .held | .tryGot | .tryRead _ | .leaving _ | .letting => true
  | _ => false

/-- What the thread has counted. -/
def wt : Pc → Nat
  | .waiting | .held | .leaving _ => 1
  | _ => 0

def Owned (s : State N) : Prop := ∀ u, has (s.pc u) = true ↔ s.owner = some u

theorem owned_keep {s : State N} {t : Fin N} {p : Pc} {n : BitVec 32} (hs : Owned s) (hp : has p = has (s.pc t)) :
    Owned ⟨n, s.owner, Function.update s.pc t p⟩ := by
  intro u
  show has (Function.update s.pc t p u) = true ↔ s.owner = some u
  by_cases hu : u = t
  · subst hu
    rw [Function.update_self, hp]
    exact hs u
  · rw [Function.update_of_ne hu]
    exact hs u

theorem owned_take {s : State N} {t : Fin N} {p : Pc} {n : BitVec 32} (hs : Owned s) (ho : s.owner = none)
    (hp : has p = true) : Owned ⟨n, some t, Function.update s.pc t p⟩ := by
  intro u
  show has (Function.update s.pc t p u) = true ↔ some t = some u
  by_cases hu : u = t
  · subst hu
    simp [hp]
  · rw [Function.update_of_ne hu, hs u, ho]
    simp [Ne.symm hu]

theorem owned_drop {s : State N} {t : Fin N} {p : Pc} {n : BitVec 32} (hs : Owned s) (ho : has (s.pc t) = true)
    (hp : has p = false) : Owned ⟨n, none, Function.update s.pc t p⟩ := by
  intro u
  show has (Function.update s.pc t p u) = true ↔ none = some u
  by_cases hu : u = t
  · subst hu
    simp [hp]
  · rw [Function.update_of_ne hu, hs u, (hs t).1 ho]
    simp [Ne.symm hu]

theorem owned_step {s s' : State N} {t : Fin N} {p : Part} (h : step s t p = some s') (hs : Owned s) : Owned s' := by
  cases p <;> simp only [step] at h <;> split at h <;> try cases h
  case lockRead.isTrue e => exact owned_keep hs (by rw [e]; rfl)
  case lockGet.isTrue e => exact owned_take hs e.2 rfl
  case tryGet.isTrue e => exact owned_take hs e.2 rfl
  case tryBusy.isTrue e => exact hs
  case tryRead.isTrue e => exact owned_keep hs (by rw [e]; rfl)
  case unlockRead.isTrue e => exact owned_keep hs (by rw [e]; rfl)
  case unlockGo.isTrue e => exact owned_drop hs (by rw [e]; rfl) rfl
  all_goals
    next v e => exact owned_keep hs (by rw [e]; rfl)

theorem sum_update (pc : Fin N → Pc) (t : Fin N) (p : Pc) :
    (∑ u, wt (Function.update pc t p u)) + wt (pc t) = (∑ u, wt (pc u)) + wt p := by
  rw [← Finset.add_sum_erase Finset.univ _ (Finset.mem_univ t),
    ← Finset.add_sum_erase Finset.univ (fun u => wt (pc u)) (Finset.mem_univ t)]
  have : ∑ u ∈ Finset.univ.erase t, wt (Function.update pc t p u) = ∑ u ∈ Finset.univ.erase t, wt (pc u) := by
    refine Finset.sum_congr rfl fun u hu => ?_
    rw [Function.update_of_ne (Finset.ne_of_mem_erase hu)]
  rw [this, Function.update_self]
  omega

/-- The value that a thread has read and not yet written back. -/
def seen : Pc → Option (BitVec 32)
  | .counting v | .tryRead v | .leaving v => some v
  | _ => none

def Good (s : State N) : Prop := s.n = BitVec.ofNat 32 (∑ u, wt (s.pc u)) ∧ ∀ u v, seen (s.pc u) = some v → v = s.n

theorem good_init : Good (init N) := by
  refine ⟨?_, fun u v h => by simp [init, seen] at h⟩
  simp [init, wt]

theorem good_move {s : State N} {t : Fin N} {p : Pc} {o : Option (Fin N)} (hs : Good s) (hw : wt p = wt (s.pc t))
    (hp : ∀ v, seen p = some v → v = s.n) : Good ⟨s.n, o, Function.update s.pc t p⟩ := by
  refine ⟨?_, fun u v h => ?_⟩
  · have := sum_update s.pc t p
    have e : (∑ u, wt (Function.update s.pc t p u)) = ∑ u, wt (s.pc u) := by omega
    show s.n = BitVec.ofNat 32 (∑ u, wt (Function.update s.pc t p u))
    rw [e]
    exact hs.1
  · by_cases hu : u = t
    · subst hu
      exact hp v (by simpa using h)
    · exact hs.2 u v (by simpa [hu] using h)

theorem good_write {s : State N} {t : Fin N} {p : Pc} {o : Option (Fin N)} {n : BitVec 32}
    (hn : n = BitVec.ofNat 32 (∑ u, wt (Function.update s.pc t p u))) (hp : seen p = none)
    (hal : ∀ u, u ≠ t → seen (s.pc u) = none) : Good ⟨n, o, Function.update s.pc t p⟩ := by
  refine ⟨hn, fun u v h => ?_⟩
  by_cases hu : u = t
  · subst hu
    rw [show (State.mk n o (Function.update s.pc u p)).pc u = p by simp, hp] at h
    cases h
  · rw [show (State.mk n o (Function.update s.pc t p)).pc u = s.pc u by simp [hu], hal u hu] at h
    cases h

theorem ofNat_succ (a : Nat) : BitVec.ofNat 32 (a + 1) = BitVec.ofNat 32 a + 1 := by
  rw [BitVec.ofNat_add]; rfl

theorem good_step {s s' : State N} {t : Fin N} {p : Part} (h : step s t p = some s') (hs : Good s)
    (hal : p = .lockWrite ∨ p = .tryWrite ∨ p = .unlockWrite → ∀ u, u ≠ t → seen (s.pc u) = none) : Good s' := by
  have key := fun q => sum_update s.pc t q
  cases p <;> simp only [step] at h <;> split at h <;> try cases h
  case lockRead.isTrue e => exact good_move hs (by rw [e]; rfl) (by simp [seen])
  case lockGet.isTrue e => exact good_move hs (by rw [e.1]; rfl) (by simp [seen])
  case tryGet.isTrue e => exact good_move hs (by rw [e.1]; rfl) (by simp [seen])
  case tryBusy.isTrue e => exact hs
  case tryRead.isTrue e => exact good_move hs (by rw [e]; rfl) (by simp [seen])
  case unlockRead.isTrue e => exact good_move hs (by rw [e]; rfl) (by simp [seen])
  case unlockGo.isTrue e => exact good_move hs (by rw [e]; rfl) (by simp [seen])
  next v e =>
    have hv := hs.2 t v (by rw [e]; rfl)
    refine good_write ?_ rfl (hal (.inl rfl))
    have := key .waiting
    rw [e] at this
    simp only [wt] at this
    rw [hv, hs.1, ← ofNat_succ]
    congr 1
    simpa [wt] using this.symm
  next v e =>
    have hv := hs.2 t v (by rw [e]; rfl)
    refine good_write ?_ rfl (hal (.inr (.inl rfl)))
    have := key .held
    rw [e] at this
    rw [hv, hs.1, ← ofNat_succ]
    congr 1
    simpa [wt] using this.symm
  next v e =>
    have hv := hs.2 t v (by rw [e]; rfl)
    refine good_write ?_ rfl (hal (.inr (.inr rfl)))
    have := key .letting
    rw [e] at this
    have e' : (∑ u, wt (s.pc u)) = (∑ u, wt (Function.update s.pc t .letting u)) + 1 := by simpa [wt] using this.symm
    rw [hv, hs.1, e', ofNat_succ]
    exact BitVec.add_sub_cancel _ _

end Ecl.MutexCount
