import Verif.Model.Errno

/-!
# C72: a failing system call is reported alike by exceptions and by error flags
-/
set_option autoImplicit false

namespace Ecl.Props
open Ecl Ecl.Errno

/-- **C72, partial**: for every value of `errno` the exception and the error flag agree, for writing,
reading, synchronising and closing files and for all socket calls but the next three. -/
theorem C72_same_flag_partial (e : Nat) :
    writeException e = writeError e ∧ readException e = readError e ∧ syncException e = syncError e ∧
      closeException e = closeError e ∧ socketException e = socketError e ∧ bindException e = bindError e ∧
      acceptException e = acceptError e ∧ receiveException e = receiveError e ∧
      sendException e = sendError e ∧ ioctlException e = ioctlError e :=
  ⟨rfl, rfl, rfl, rfl, rfl, rfl, rfl, rfl, rfl, rfl⟩

/-- **C72**: for opening a file they agree exactly when `errno` is not `ENOENT` (2). -/
theorem C72_open (e : Nat) : openException e = openError e ↔ e ≠ 2 := by
  constructor
  · rintro h rfl; revert h; decide
  · intro h
    unfold openException
    split <;> first | rfl | exact absurd rfl h | skip
    unfold openError
    split <;> first | rfl | simp_all

/-- **C72, refuted**: a missing file throws `NotFoundError`, but without exceptions is `UnknownError`. -/
theorem C72_fails_open : openException 2 = .notFoundError ∧ openError 2 = .unknownError := by decide

/-- **C72**: for connecting they agree exactly when `errno` is neither `ENETUNREACH` (101) nor
`EHOSTUNREACH` (113). -/
theorem C72_connect (e : Nat) : connectionException e = connectionError e ↔ e ≠ 101 ∧ e ≠ 113 := by
  constructor
  · intro h
    refine ⟨?_, ?_⟩ <;> rintro rfl <;> revert h <;> decide
  · intro h
    unfold connectionException
    split <;> first | rfl | exact absurd rfl h.1 | exact absurd rfl h.2 | skip
    unfold connectionError
    split <;> first | rfl | simp_all

/-- **C72, refuted**: an unreachable network is `NotFoundError` as an exception and `ConfigurationError` as
a flag; an unreachable host `NotFoundError` and `UnknownError`. -/
theorem C72_fails_connect : connectionException 101 = .notFoundError ∧
    connectionError 101 = .configurationError ∧ connectionException 113 = .notFoundError ∧
    connectionError 113 = .unknownError := by decide

/-- **C72**: for looking up a host they agree exactly when `h_errno` is neither `HOST_NOT_FOUND` (1) nor
`TRY_AGAIN` (2). -/
theorem C72_hostname (e : Nat) : gethostbynameException e = gethostbynameError e ↔ e ≠ 1 ∧ e ≠ 2 := by
  constructor
  · intro h
    refine ⟨?_, ?_⟩ <;> rintro rfl <;> revert h <;> decide
  · intro h
    unfold gethostbynameException
    split <;> first | rfl | exact absurd rfl h.1 | exact absurd rfl h.2 | skip
    unfold gethostbynameError
    split <;> first | rfl | simp_all

/-- **C72, refuted**: an unknown host is `OpenError` as an exception, `ConnectionError` as a flag. -/
theorem C72_fails_hostname : gethostbynameException 1 = .openError ∧ gethostbynameError 1 = .connectionError ∧
    gethostbynameException 2 = .openError ∧ gethostbynameError 2 = .unknownError := by decide

/-- **C72, refuted**: labels of the form `A || B` catch neither error: a read or write of a non-blocking
socket that would block (`EAGAIN`, 11) is not recognised when reading, `EACCES` (13) not when connecting;
instead `EPERM` (1) is taken for them. -/
theorem C72_fails_labels : receiveException 11 = .unknownError ∧ receiveException 1 = .interruptedError ∧
    sendException 1 = .blockingError ∧ connectionException 13 = .unknownError := by decide

end Ecl.Props
