import Verif.Core.Outcome

/-!
# Model of `ecl::realpath`

`ecl_filesystem/src/lib/realpath.cpp`.  What the C library's `realpath` answers is a parameter.
-/
set_option autoImplicit false

namespace Ecl.RealPath

/-- The answer of `::realpath(path,buffer)`: the resolved path, stored in the buffer, or `NULL` with
`errno`.  In the second case the buffer has a C string in it (`some`), or is still as `new char[]` made
it (`none`): ISO/IEC 9945 leaves its contents unspecified. -/
inductive Answer where
  | resolved (path : List Char)
  | failed (errno : Nat) (buffer : Option (List Char))
  deriving Repr, DecidableEq

/-- `path.c_str()` as the C library reads it (`realpath.cpp:47`): up to the first NUL. -/
def cString (path : List Char) : List Char := path.takeWhile (· ≠ '\x00')

/-- The flag for `errno`: `realpath.cpp:52-61`, Linux numbers. -/
def flag : Nat → Flag
  | 13 => .permissionsError   -- EACCES
  | 22 => .invalidArgError   -- EINVAL
  | 5 => .readError   -- EIO
  | 40 => .invalidObjectError   -- ELOOP
  | 36 => .invalidArgError   -- ENAMETOOLONG
  | 2 => .notFoundError   -- ENOENT
  | 20 => .invalidObjectError   -- ENOTDIR
  | _ => .unknownError

/-- The caller's side: the string `absolute_path` refers to, and the number of buffers allocated with
`new` and not deleted. (`realpath.cpp:36-65`.) -/
structure Caller where
  absolute : List Char
  live : Nat
  deriving Repr, DecidableEq

/-- `absolute_path = buffer` (`realpath.cpp:48`): reading characters nobody wrote is undefined. -/
def assign (s : Caller) : Option (List Char) → Outcome Caller
  | none => .ub
  | some b => .ok { s with absolute := b }

/-- `realpath(path,absolute_path)`: `realpath.cpp:36-65`.  Every failing return leaves before
`delete[]`. -/
def realpath (libc : List Char → Answer) (path : List Char) (s : Caller) : Outcome (Caller × Flag) :=
  match libc (cString path) with
  | .resolved p =>
    match assign { s with live := s.live + 1 } (some p) with
    | .ok s => .ok ({ s with absolute := p, live := s.live - 1 }, .noError)
    | .ub => .ub
    | .throw f => .throw f
  | .failed e b =>
    match assign { s with live := s.live + 1 } b with
    | .ok s => .ok (s, flag e)
    | .ub => .ub
    | .throw f => .throw f

/-- A program's calls of `realpath` one after the other. (`realpath.cpp:36-65`.) -/
def calls (libc : List Char → Answer) : List (List Char) → Caller → Outcome Caller
  | [], s => .ok s
  | p :: ps, s =>
    match realpath libc p s with
    | .ok (s, _) => calls libc ps s
    | .ub => .ub
    | .throw f => .throw f

end Ecl.RealPath
