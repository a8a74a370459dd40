import Verif.Model.RealPath

/-!
# C86: `ecl::realpath`
-/
set_option autoImplicit false

namespace Ecl.Props
open Ecl.RealPath

private theorem cString_self {p : List Char} (h : '\x00' ∉ p) : cString p = p := by
  have h1 := List.takeWhile_append_of_pos (p := fun c => decide (c ≠ '\x00')) (l₁ := p) (l₂ := [])
    fun c hc => by simpa using fun e : c = '\x00' => h (e ▸ hc)
  simpa [cString] using h1

/-- What the header and the comments beside the returns promise for the reasons the C library has. -/
inductive PathError : Nat → Flag → Prop
  | noPermission : PathError 13 .permissionsError
  | noPath : PathError 22 .invalidArgError
  | ioError : PathError 5 .readError
  | linkLoop : PathError 40 .invalidObjectError
  | nameTooLong : PathError 36 .invalidArgError
  | notThere : PathError 2 .notFoundError
  | notDirectory : PathError 20 .invalidObjectError

/-- A path the system can resolve: its resolution is stored, no error is returned and no memory is
kept. -/
theorem C86_resolved (libc : List Char → Answer) (path p : List Char) (s : Caller)
    (hn : '\x00' ∉ path) (h : libc path = .resolved p) :
    realpath libc path s = .ok (⟨p, s.live⟩, .noError) := by
  have hc := cString_self hn
  simp [realpath, hc, h, assign]

example : realpath (fun p => if p = "./a/..".toList then .resolved "/home".toList else .failed 2 none)
    "./a/..".toList ⟨[], 0⟩ = .ok (⟨"/home".toList, 0⟩, .noError) := by decide

/-- If the system cannot resolve the path and has left a C string in the buffer, the error says why, and
is never `NoError`. -/
theorem C86_error_partial (libc : List Char → Answer) (path b : List Char) (e : Nat) (s : Caller)
    (hn : '\x00' ∉ path) (h : libc path = .failed e (some b)) :
    ∃ s' f, realpath libc path s = .ok (s', f) ∧ f ≠ .noError ∧ (∀ f', PathError e f' → f = f') ∧
      ((∀ f', ¬ PathError e f') → f = .unknownError) := by
  have hc := cString_self hn
  refine ⟨_, flag e, by simp only [realpath, hc, h, assign]; rfl, ?_, ?_, ?_⟩
  · unfold flag; split <;> simp
  · rintro f ⟨⟩ <;> rfl
  · intro hf
    unfold flag
    split
    · exact absurd .noPermission (hf _)
    · exact absurd .noPath (hf _)
    · exact absurd .ioError (hf _)
    · exact absurd .linkLoop (hf _)
    · exact absurd .nameTooLong (hf _)
    · exact absurd .notThere (hf _)
    · exact absurd .notDirectory (hf _)
    · rfl

example : realpath (fun _ => .failed 20 (some "/etc/passwd".toList)) "/etc/passwd/x".toList ⟨[], 0⟩ =
    .ok (⟨"/etc/passwd".toList, 1⟩, .invalidObjectError) := by decide

/-- If the system has left the buffer alone, as for an empty path or one that is too long, the call is
undefined instead of returning the error. -/
theorem C86_fails_error (libc : List Char → Answer) (path : List Char) (e : Nat) (s : Caller)
    (h : libc (cString path) = .failed e none) : realpath libc path s = .ub := by
  simp [realpath, h, assign]

example : realpath (fun p => if p = [] then .failed 2 none else .resolved p) [] ⟨[], 0⟩ = .ub := by decide

/-- A failed call replaces the caller's string by whatever is in the buffer. -/
theorem C86_fails_untouched (libc : List Char → Answer) (path b : List Char) (e : Nat) (s : Caller)
    (h : libc (cString path) = .failed e (some b)) :
    ∃ s' f, realpath libc path s = .ok (s', f) ∧ f ≠ .noError ∧ s'.absolute = b := by
  refine ⟨_, flag e, by simp only [realpath, h, assign]; rfl, ?_, rfl⟩
  unfold flag; split <;> simp

/-- Only calls that succeed return their memory. -/
theorem C86_memory_partial (libc : List Char → Answer) (paths : List (List Char)) (s : Caller)
    (h : ∀ p ∈ paths, ∃ q, libc (cString p) = .resolved q) :
    ∃ s', calls libc paths s = .ok s' ∧ s'.live = s.live := by
  induction paths generalizing s with
  | nil => exact ⟨s, rfl, rfl⟩
  | cons p ps ih =>
    obtain ⟨q, hq⟩ := h p (by simp)
    obtain ⟨s', h1, h2⟩ := ih ⟨q, s.live⟩ fun p hp => h p (by simp [hp])
    exact ⟨s', by simpa [calls, realpath, hq, assign] using h1, h2⟩

example : calls .resolved ["/a".toList, "/b".toList] ⟨[], 7⟩ = .ok ⟨"/b".toList, 7⟩ := by decide

/-- Calls that fail keep a buffer each, without bound. -/
theorem C86_fails_memory (n : Nat) : ∃ (libc : List Char → Answer) (paths : List (List Char))
    (s' : Caller), calls libc paths ⟨[], 0⟩ = .ok s' ∧ s'.live = n := by
  suffices h : ∀ (n k : Nat) (a : List Char), ∃ s', calls (fun p => .failed 2 (some p))
      (List.replicate n "/x".toList) ⟨a, k⟩ = .ok s' ∧ s'.live = k + n by
    obtain ⟨s', h1, h2⟩ := h n 0 []
    exact ⟨_, _, s', h1, by simpa using h2⟩
  intro n
  induction n with
  | zero => exact fun k a => ⟨_, rfl, rfl⟩
  | succ n ih =>
    intro k a
    obtain ⟨s', h1, h2⟩ := ih (k + 1) (cString "/x".toList)
    exact ⟨s', by simpa only [List.replicate_succ, calls, realpath, assign] using h1, by omega⟩

/-- A path with a NUL in it is resolved up to there. -/
theorem C86_fails_nul (libc : List Char → Answer) (a b p : List Char) (s : Caller) (ha : '\x00' ∉ a)
    (h : libc a = .resolved p) :
    realpath libc (a ++ '\x00' :: b) s = .ok (⟨p, s.live⟩, .noError) := by
  have hc : cString (a ++ '\x00' :: b) = a := by
    unfold cString
    rw [List.takeWhile_append_of_pos fun c hc => by simpa using fun e : c = '\x00' => ha (e ▸ hc)]
    simp
  simp [realpath, hc, h, assign]

end Ecl.Props
