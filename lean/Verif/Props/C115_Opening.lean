import Verif.Spec.Opening

/-! # C115: opening devices and streams in builds with and without exceptions -/
set_option autoImplicit false
set_option linter.unusedSimpArgs false

namespace Ecl.Props.C115
open Ecl Ecl.Errno

theorem openException_ne (e : Nat) : openException e ≠ .noError := by unfold openException; split <;> decide
theorem openError_ne (e : Nat) : openError e ≠ .noError := by unfold openError; split <;> decide
theorem socketException_ne (e : Nat) : socketException e ≠ .noError := by unfold socketException; split <;> decide
theorem socketError_ne (e : Nat) : socketError e ≠ .noError := by unfold socketError; split <;> decide
theorem bindException_ne (e : Nat) : bindException e ≠ .noError := by unfold bindException; split <;> decide
theorem bindError_ne (e : Nat) : bindError e ≠ .noError := by unfold bindError; split <;> decide
theorem hostException_ne (e : Nat) : gethostbynameException e ≠ .noError := by
  unfold gethostbynameException; split <;> decide
theorem hostError_ne (e : Nat) : gethostbynameError e ≠ .noError := by unfold gethostbynameError; split <;> decide
theorem connectionException_ne (e : Nat) : connectionException e ≠ .noError := by
  unfold connectionException; split <;> decide
theorem connectionError_ne (e : Nat) : connectionError e ≠ .noError := by unfold connectionError; split <;> decide

end Ecl.Props.C115

namespace Ecl.Props
open Ecl Ecl.Opening Ecl.Errno C115

/-- **C115.** Socket clients: in both builds, whatever was before and whatever the system does, the caller is told whether the
connection was made, and `open()` says the same. -/
theorem C115_client (b : Build) (s : Dev) (r : ClientSys) :
    (clientOpen b s r).1.isOpen = (r = .ok) ∧
    Told b (r = .ok) (clientOpen b s r).2 (clientOpen b s r).1.err := by
  obtain ⟨o, err⟩ := s
  cases b <;> cases r <;> cases o <;>
    simp [clientOpen, clientClose, ecl_throw, Told, socketException_ne, socketError_ne, hostException_ne, hostError_ne,
      connectionException_ne, connectionError_ne]

/-- **C115.** With exceptions, an attempt that fails leaves what `error()` says as it was. -/
theorem C115_client_error (s : Dev) (r : ClientSys) (h : r ≠ .ok) : (clientOpen .throwing s r).1.err = s.err := by
  obtain ⟨o, err⟩ := s
  cases r <;> cases o <;> simp_all [clientOpen, clientClose, ecl_throw]

/-- **C115.** Files that are opened while closed. -/
theorem C115_file_partial (b : Build) (s : File) (hs : s.isOpen = false) (n : Nat) (r : FileSys) :
    (s.open b n r).1.isOpen = (r = .ok) ∧ Told b (r = .ok) (s.open b n r).2 (s.open b n r).1.err ∧
    (s.open b n r).1.write.2 = if r = .ok then some n else none := by
  obtain ⟨t, m, err⟩ := s
  cases t
  · cases b <;> cases r <;>
      simp [File.open, File.isOpen, File.write, ecl_throw, Told, openException_ne, openError_ne]
  · simp [File.isOpen] at hs

/-- **C115.** Files in any state: the caller is told. -/
theorem C115_file_told (b : Build) (s : File) (n : Nat) (r : FileSys) :
    Told b (r = .ok) (s.open b n r).2 (s.open b n r).1.err := by
  cases b <;> cases r <;> simp [File.open, ecl_throw, Told, openException_ne, openError_ne]

/-- **C115 fails.** If opening another file fails, the file says that it is open, and what is written goes into the old
file without an error: in both builds, for every pair of files and every error of `::open`. -/
theorem C115_fails_reopened_file (b : Build) (s : File) (old n e : Nat) (h : s.target = some old) :
    (s.open b n (.noFile e)).1.isOpen = true ∧ (s.open b n (.noFile e)).1.write.2 = some old ∧
    (s.open b n (.noFile e)).1.write.1.err = .noError := by
  cases b <;> simp [File.open, File.isOpen, File.write, ecl_throw, h]

/-- **C115.** Serial ports: the caller is told, and `open()` says the same, except in builds with exceptions after a
refusal of one and a half stop bits. -/
theorem C115_serial_partial (b : Build) (s : Dev) (r : SerialSys) :
    Told b (r = .ok) (serialOpen b s r).2 (serialOpen b s r).1.err ∧
    ((b = .throwing → r = .badStop → s.isOpen = false) → (serialOpen b s r).1.isOpen = (r = .ok)) := by
  cases b <;> cases r <;> simp [serialOpen, ecl_throw, Told, openException_ne, openError_ne]

/-- **C115.** A serial port that was closed before: afterwards `open()` says whether it was opened and its file is still
there. -/
theorem C115_serial_present (b : Build) (s : Dev) (hs : s.isOpen = false) (r : SerialSys) (present : Bool) :
    (serialQuery (serialOpen b s r).1 present).isOpen = true ↔ r = .ok ∧ present = true := by
  cases b <;> cases r <;> simp [serialQuery, serialOpen, ecl_throw, hs]

/-- **C115 fails.** The builds differ: after asking an open port for one and a half stop bits it is still open with
exceptions and closed without. -/
theorem C115_fails_stop_bits (s : Dev) (h : s.isOpen = true) :
    (serialOpen .throwing s .badStop).1.isOpen = true ∧ (serialOpen .silent s .badStop).1.isOpen = false := by
  simp [serialOpen, ecl_throw, h]

/-- **C115.** Socket servers: the caller is told, and what `open()` says is right unless `bind` failed. -/
theorem C115_server_partial (b : Build) (s : Dev) (r : ServerSys) :
    Told b (r = .ok) (serverOpen b s r).2 (serverOpen b s r).1.err ∧
    ((∀ e, r ≠ .noBind e) → (serverOpen b s r).1.isOpen = (r = .ok)) := by
  obtain ⟨o, err⟩ := s
  cases b <;> cases r <;> cases o <;>
    simp [serverOpen, ecl_throw, Told, socketException_ne, socketError_ne, bindException_ne, bindError_ne]

/-- **C115 fails.** A server says that it is open after `bind` failed, in both builds. -/
theorem C115_fails_server (b : Build) (s : Dev) (e : Nat) : (serverOpen b s (.noBind e)).1.isOpen = true := by
  cases b <;> simp [serverOpen, ecl_throw]

/-- **C115.** Shared files, with exceptions: an open that is the first for its name tells whether it worked. -/
theorem C115_shared_partial (s : Shared) (n : Nat) (r : FileSys) (h : s.known n = none) :
    Told .throwing (r = .ok) (s.open .throwing n r).2 (s.open .throwing n r).1.err ∧
    (s.open .throwing n r).1.usable = (r = .ok) := by
  cases r <;> simp [Shared.open, h, File.open, File.new, ecl_throw, Told, openException_ne, Shared.usable, File.isOpen]

/-- **C115 fails.** Shared files, without exceptions: an open that failed gives `true`, without an error; so do all further
ones of that name, whatever the system would do by then; nothing written reaches a file. -/
theorem C115_fails_shared (s : Shared) (n e : Nat) (h : s.known n = none) (t : Option File) (err : Flag) (r : FileSys) :
    let s1 := (s.open .silent n (.noFile e)).1
    let again : Shared := ⟨s1.known, t, err⟩
    (s.open .silent n (.noFile e)).2 = .gave true ∧ s1.err = .noError ∧ s1.usable = false ∧
    (again.open .silent n r).2 = .gave true ∧ (again.open .silent n r).1.err = .noError ∧
    (again.open .silent n r).1.usable = false := by
  simp [Shared.open, h, File.open, File.new, ecl_throw, Shared.usable, File.isOpen]

/-- **C115.** Streams on files, on connections and on serial ports (that do not vanish while being opened). -/
theorem C115_streams (b : Build) :
    (∀ n r, StreamTold b (r = .ok) (fileStream b n r)) ∧
    (∀ r, StreamTold b (r = .ok) (clientStream b r)) ∧
    (∀ r, StreamTold b (r = .ok) (serialStream b r true)) := by
  refine ⟨fun n r => ?_, fun r => ?_, fun r => ?_⟩
  · cases b <;> cases r <;> simp [fileStream, File.open, File.new, ecl_throw, streamError, StreamTold, openError_ne]
  · cases b <;> cases r <;> simp [clientStream, clientOpen, Dev.new, ecl_throw, streamError, StreamTold, socketError_ne,
      hostError_ne, connectionError_ne]
  · cases b <;> cases r <;> simp [serialStream, serialOpen, serialQuery, Dev.new, ecl_throw, StreamTold, openError_ne]

/-- **C115.** Streams on shared files, with exceptions, if the file is not known yet. -/
theorem C115_shared_stream_partial (known : Nat → Option File) (n : Nat) (r : FileSys) (h : known n = none) :
    StreamTold .throwing (r = .ok) (sharedStream .throwing known n r) := by
  cases r <;> simp [sharedStream, Shared.open, h, File.open, File.new, ecl_throw, streamError, StreamTold]

/-- **C115 fails.** A stream on a shared file that cannot be opened does not fail in builds without exceptions. -/
theorem C115_fails_shared_stream (known : Nat → Option File) (n e : Nat) (h : known n = none) :
    sharedStream .silent known n (.noFile e) = some .noError ∧
    ¬ StreamTold .silent false (sharedStream .silent known n (.noFile e)) := by
  simp [sharedStream, Shared.open, h, File.open, File.new, ecl_throw, streamError, StreamTold]

/-- **C115 fails.** A stream on a serial port that was opened and vanishes before the constructor looks again does not fail. -/
theorem C115_fails_serial_stream (b : Build) : serialStream b .ok false = some .noError := by
  cases b <;> simp [serialStream, serialOpen, serialQuery, Dev.new]

/-- **C115.** Shared memory: with exceptions, an object that was constructed points to the shared memory. -/
theorem C115_memory_partial (r : MemorySys) (p : Pointer) (h : memoryNew .throwing r = .ok p) : p = .shared ∧ r = .ok := by
  cases r <;> simp [memoryNew] at h ⊢
  exact h.symm

/-- **C115 fails.** Without exceptions every construction succeeds, also those without any memory. -/
theorem C115_fails_memory (e : Flag) :
    (∀ r, ∃ p, memoryNew .silent r = .ok p) ∧ memoryNew .silent (.noObject e) = .ok .invalid := by
  refine ⟨fun r => ?_, rfl⟩
  cases r <;> simp [memoryNew]

/-! ## Examples -/

/-- A refused connection (`ECONNREFUSED` = 111) on a client that was connected. -/
example : clientOpen .silent ⟨true, .noError⟩ (.refused 111) = (⟨false, .connectionRefusedError⟩, .gave false) := by decide

/-- A file that is not there (`ENOENT` = 2), after one that was: bytes go to file 1. -/
example : ((File.new.open .silent 1 .ok).1.open .silent 2 (.noFile 2)).1.write.2 = some 1 := by decide

/-- The hypotheses of `C115_fails_shared` are met by a process without shared files. -/
example : (⟨fun _ => none, none, .noError⟩ : Shared).known 3 = none := rfl

end Ecl.Props
