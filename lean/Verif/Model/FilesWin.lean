import Verif.Model.Files

/-!
# Model of `ecl::OFile` on Windows

`ecl_devices/src/lib/ofile_w32.cpp`.  Apart from the calls that open the file the text is that of
`ofile_pos.cpp` (`Verif.Model.Files`).  Neither `_sopen_s` (`70`, `79`) is given `_O_BINARY` nor `_fdopen` (`75`,
`84`) a `b`, so (unless the program changes the default of the C library) the stream translates.
-/
set_option autoImplicit false

namespace Ecl.OFileWin

/-- The translation that the C library makes in text mode. (C library behind
`ofile_w32.cpp:133-149`.) -/
def text (bs : List Nat) : List Nat := bs.flatMap fun b => if b = 10 then [13, 10] else [b]

/-- `open(name,mode)` (`66-96`), for calls that succeed: no `_O_TRUNC` in mode `New`. -/
def openFile (s : OFile Nat) (mode : WMode) : OFile Nat := ⟨s.disk, some (mode, 0), .noError⟩

/-- `write(const char*, n)` (`133-149`).  `fwrite(s,n,1,file)` counts the elements taken from `s`, not the bytes that
are written. -/
def write (m : Mode) (s : OFile Nat) (bs : List Nat) (ok : Bool) : Res (OFile Nat) Int :=
  match s.stream with
  | none =>
    match m with
    | .debug => .throw s .openError
    | .release => .ok { s with err := .openError } (-1)
  | some (mode, pos) =>
    if ok ∧ bs ≠ [] then .ok { OFile.emit s mode pos (text bs) with err := .noError } bs.length
    else match m with
      | .debug => .throw s .writeError
      | .release => .ok { s with err := .writeError } (-1)

/-- `close()` (`98-110`), for an `fclose` that succeeds. -/
def close (s : OFile Nat) : OFile Nat := ⟨s.disk, none, .noError⟩

/-- A sequence of successful writes and what they return. (Calls of `ofile_w32.cpp:133-149`.) -/
def writes (m : Mode) (s : OFile Nat) : List (List Nat) → Outcome (OFile Nat × List Int)
  | [] => .ok (s, [])
  | bs :: rest =>
    match write m s bs true with
    | .ok s n => writes m s rest >>= fun r => .ok (r.1, n :: r.2)
    | .throw _ e => .throw e
    | .ub => .ub

end Ecl.OFileWin
