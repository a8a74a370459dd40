/-!
# Outcomes of modelled C++ calls

`Outcome` is the result of a call without relevant state, `Res` the result of a call on an
object: a C++ exception leaves the object in a definite (possibly broken) state, so `throw`
carries the state too.  Undefined behaviour `ub` is a distinct, absorbing outcome.
-/
set_option autoImplicit false

namespace Ecl

/-- Build mode: `ecl_assert_throw` and `ecl_debug_throw` throw in `debug` builds and are
no-ops in `release` builds (`ecl_exceptions/include/ecl/exceptions/macros.hpp:85-127`).
Builds with `ECL_DISABLE_EXCEPTIONS` are not modelled. -/
inductive Mode where
  | debug
  | release
  deriving DecidableEq, Repr

/-- The `ecl::ErrorFlag` values that occur in the modelled code (the enumeration itself lives
in the external package `ecl_errors`). -/
inductive Flag where
  | noError | openError | closeError | outOfRange | connectionError | constructorError
  | conversionError | memoryError | rangeError | readError | writeError | timeOutError
  | interruptedError | invalidInputError | invalidObjectError | notSupportedError
  | notFoundError | permissionsError | busyError | unknownError | usageError
  | argNotSupportedError | argConfigurationError | systemFailureError | outOfResourcesError
  | isLockedError | notInitialisedError | destructorError | configurationError | blockingError
  | invalidArgError | connectionRefusedError
  deriving DecidableEq, Repr

/-- Result of a call: a value, an exception carrying an error flag, or undefined behaviour. -/
inductive Outcome (α : Type _) where
  | ok (a : α)
  | throw (e : Flag)
  | ub
  deriving DecidableEq, Repr

namespace Outcome
variable {α β : Type _}

def bind (x : Outcome α) (f : α → Outcome β) : Outcome β :=
  match x with
  | ok a => f a
  | throw e => throw e
  | ub => ub

instance : Monad Outcome where
  pure := ok
  bind := bind

@[simp] theorem bind_ok (a : α) (f : α → Outcome β) : (ok a >>= f) = f a := rfl
@[simp] theorem bind_throw (e : Flag) (f : α → Outcome β) : (throw e >>= f) = throw e := rfl
@[simp] theorem bind_ub (f : α → Outcome β) : ((ub : Outcome α) >>= f) = ub := rfl
@[simp] theorem pure_eq (a : α) : (pure a : Outcome α) = ok a := rfl

end Outcome

/-- `ecl_assert_throw(cond, e)`: throws in debug builds if the condition fails
(`macros.hpp:86,104`). -/
def assertThrow (m : Mode) (c : Bool) (e : Flag) : Outcome Unit :=
  match m with
  | .debug => if c then .ok () else .throw e
  | .release => .ok ()

/-- Result of a call on an object with state `σ`. -/
inductive Res (σ : Type _) (α : Type _) where
  | ok (s : σ) (a : α)
  | throw (s : σ) (e : Flag)
  | ub
  deriving DecidableEq, Repr

namespace Res
variable {σ α β : Type _}

def bind (x : Res σ α) (f : σ → α → Res σ β) : Res σ β :=
  match x with
  | ok s a => f s a
  | throw s e => throw s e
  | ub => ub

/-- The result is not undefined behaviour. -/
def Safe (x : Res σ α) : Prop := x ≠ ub

end Res

deriving instance DecidableEq for Except

/-- What a caller observes of one call: a value or an exception. -/
abbrev Obs (α : Type _) := Except Flag α

/-- Run a history of operations; the caller catches exceptions and goes on.  Undefined
behaviour anywhere makes the whole history undefined (`none`). -/
def runOps {σ Op α : Type _} (step : σ → Op → Res σ α) : σ → List Op → Option (σ × List (Obs α))
  | s, [] => some (s, [])
  | s, op :: ops =>
    match step s op with
    | .ub => none
    | .ok s' a => (runOps step s' ops).map fun r => (r.1, .ok a :: r.2)
    | .throw s' e => (runOps step s' ops).map fun r => (r.1, .error e :: r.2)

/-- Run a specification (no undefined behaviour) over a history. -/
def runSpec {τ Op α : Type _} (spec : τ → Op → τ × Obs α) : τ → List Op → τ × List (Obs α)
  | t, [] => (t, [])
  | t, op :: ops =>
    let r := spec t op
    let r' := runSpec spec r.1 ops
    (r'.1, r.2 :: r'.2)

/-- Every operation of a history is legal in the specification state in which it is called. -/
def Legal {τ Op α : Type _} (spec : τ → Op → τ × Obs α) (legal : τ → Op → Prop) :
    τ → List Op → Prop
  | _, [] => True
  | t, op :: ops => legal t op ∧ Legal spec legal (spec t op).1 ops

/-- The state and observation of a single step, as a pair (`none` for undefined behaviour). -/
def Res.obs {σ α : Type _} : Res σ α → Option (σ × Obs α)
  | .ok s a => some (s, .ok a)
  | .throw s e => some (s, .error e)
  | .ub => none

theorem runOps_cons {σ Op α : Type _} (step : σ → Op → Res σ α) (s : σ) (op : Op) (ops : List Op) :
    runOps step s (op :: ops) =
      (step s op).obs.bind fun r => (runOps step r.1 ops).map fun q => (q.1, r.2 :: q.2) := by
  cases h : step s op <;> simp [runOps, Res.obs, h]

/-- Forward simulation: a relation preserved by every legal step with equal observations lifts
to every legal history. -/
theorem refines {σ τ Op α : Type _} (step : σ → Op → Res σ α) (spec : τ → Op → τ × Obs α)
    (legal : τ → Op → Prop) (R : σ → τ → Prop)
    (h : ∀ s t op, R s t → legal t op →
      ∃ s', (step s op).obs = some (s', (spec t op).2) ∧ R s' (spec t op).1) :
    ∀ (ops : List Op) (s : σ) (t : τ), R s t → Legal spec legal t ops →
      ∃ s', runOps step s ops = some (s', (runSpec spec t ops).2) ∧ R s' (runSpec spec t ops).1 := by
  intro ops
  induction ops with
  | nil => intro s t hR _; exact ⟨s, rfl, hR⟩
  | cons op ops ih =>
    intro s t hR hl
    obtain ⟨s', hs, hR'⟩ := h s t op hR hl.1
    obtain ⟨s'', hs', hR''⟩ := ih s' _ hR' hl.2
    refine ⟨s'', ?_, hR''⟩
    rw [runOps_cons, hs]
    simp [hs', runSpec]

/-- An invariant preserved by every step that excludes undefined behaviour makes every history
defined, and holds at its end. -/
theorem invariant_runs {σ Op α : Type _} (step : σ → Op → Res σ α) (Inv : σ → Prop)
    (h : ∀ s op, Inv s → ∃ r, (step s op).obs = some r ∧ Inv r.1) :
    ∀ (ops : List Op) (s : σ), Inv s → ∃ r, runOps step s ops = some r ∧ Inv r.1 := by
  intro ops
  induction ops with
  | nil => intro s hs; exact ⟨(s, []), rfl, hs⟩
  | cons op ops ih =>
    intro s hs
    obtain ⟨r, hr, hi⟩ := h s op hs
    obtain ⟨r', hr', hi'⟩ := ih r.1 hi
    refine ⟨(r'.1, r.2 :: r'.2), ?_, hi'⟩
    rw [runOps_cons, hr]
    simp [hr']

end Ecl
