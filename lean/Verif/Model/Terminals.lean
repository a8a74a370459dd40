import Verif.Model.Converters
import Verif.Model.Formatters
import Verif.Model.Sockets

/-!
# Model of the terminal programs

`ecl_core_apps/src/utils/serial.cpp`, `hex.cpp`, `socket_server.cpp`, `socket_client.cpp`: one thread sends what is typed,
the other shows what is received.  Each thread is modelled by itself: the list of what it does.  Writing to the
device is taken to succeed (its result is not looked at).  The pauses between two rounds and the command line are not modelled.
-/
set_option autoImplicit false

namespace Ecl.Terminal
open Ecl.Socket

/-- What is typed and shown (`ecl_core_apps/src/utils/serial.cpp:87-150`). -/
abbrev Text := List Char

/-- What a thread does: send bytes, show text, read the clock into its time stamp, show the time
stamp. (`serial.cpp:94-150`, `hex.cpp:94-151`, `socket_server.cpp:69-152`,
`socket_client.cpp:69-148`.) -/
inductive Ev where
  | send (bs : List Nat)
  | show (t : Text)
  | stamp
  | time
  deriving DecidableEq, Repr

/-- How a thread ends: at the end of the input; by an exception that nobody catches, which ends the program; in undefined
behaviour; by leaving its loop; or not (yet). (`serial.cpp:94-150`, `hex.cpp:94-151`,
`socket_server.cpp:69-152`, `socket_client.cpp:69-148`.) -/
inductive End where
  | eof | terminated | undefined | left | running
  deriving DecidableEq, Repr

/-! ## What is typed -/

/-- At most `n` characters, up to the end of a line. (C library, called at `serial.cpp:89`, `hex.cpp:96`,
`socket_server.cpp:137`, `socket_client.cpp:133`.) -/
def line : Nat → Text → Text × Text
  | 0, i => ([], i)
  | _ + 1, [] => ([], [])
  | n + 1, c :: cs => if c = '\n' then ([c], cs) else (c :: (line n cs).1, (line n cs).2)

/-- `fgets(buffer, size, stdin)`. (C library, called at `serial.cpp:89`, `hex.cpp:96`,
`socket_server.cpp:137`, `socket_client.cpp:133`.) -/
def fgets (size : Nat) (input : Text) : Option (Text × Text) :=
  if input = [] then none else some (line (size - 1) input)

/-- The buffer read as a C string. (The search for the end at `serial.cpp:94-100`, `hex.cpp:101-111`,
`socket_server.cpp:142-150`, `socket_client.cpp:138-146`.) -/
def cstr (t : Text) : Text := t.takeWhile (· ≠ '\x00')

/-- As bytes, for `write` at `serial.cpp:94-100`, `socket_server.cpp:142-150`,
`socket_client.cpp:138-146`. -/
def bytes (t : Text) : List Nat := t.map Char.toNat

theorem line_lt : ∀ (n : Nat) (i : Text), i ≠ [] → (line (n + 1) i).2.length < i.length
  | n, [], h => absurd rfl h
  | n, c :: cs, _ => by
    have gen : ∀ (n : Nat) (i : Text), (line n i).2.length ≤ i.length := by
      intro n i
      induction i generalizing n with
      | nil => cases n <;> simp [line]
      | cons c cs ih =>
        cases n with
        | zero => simp [line]
        | succ n =>
          simp only [line]
          split
          · simp
          · exact Nat.le_trans (ih n) (by simp)
    simp only [line]
    split
    · simp
    · exact Nat.lt_succ_of_le (gen n cs)

/-- The loop of a writer (`serial.cpp:87-102`, `hex.cpp:94-113`, `socket_server.cpp:136-152`, `socket_client.cpp:132-148`):
`each` is what it does with a line, and whether it ends with it. -/
def writer (each : Text → List Ev × Option End) (input : Text) : List Ev × End :=
  match h : fgets 80 input with
  | none => ([], .eof)
  | some (l, rest) =>
    match each l with
    | (es, some e) => (es, e)
    | (es, none) => let r := writer each rest; (es ++ r.1, r.2)
termination_by input.length
decreasing_by
  unfold fgets at h
  split at h
  · cases h
  · rename_i hi
    have h' := congrArg Prod.snd (Option.some.inj h)
    have h2 := line_lt 78 input hi
    dsimp only at h'
    rw [← h']
    exact h2

/-- `serial.cpp:94-100`. -/
def serialEach (ts : Bool) (l : Text) : List Ev × Option End :=
  (.send (bytes (cstr l)) :: (if ts then [.stamp, .time] else []), none)

/-- `socket_server.cpp:142-150`, `socket_client.cpp:138-146`. -/
def socketEach (ts : Bool) (l : Text) : List Ev × Option End :=
  ((if ts then [.stamp] else []) ++ [.send (bytes (cstr l))] ++ (if ts then [.time] else []) ++ [.show (cstr l)], none)

/-- `hex.cpp:101-111`: the address of the first element of an empty vector is asked for. -/
def hexEach (m : Mode) (ts : Bool) (l : Text) : List Ev × Option End :=
  match Conv.hexParse m (cstr l) with
  | .ok (bs, _) =>
    if bs = [] then ([.show ['\n']], some .undefined)
    else ([.show ['\n'], .send bs] ++ (if ts then [.stamp, .time] else []), none)
  | .throw _ => ([], some .terminated)
  | .ub => ([], some .undefined)

/-- (`serial.cpp:87-102`.) -/
def serialWriter (ts : Bool) : Text → List Ev × End := writer (serialEach ts)
/-- (`socket_server.cpp:136-152`, `socket_client.cpp:132-148`.) -/
def socketWriter (ts : Bool) : Text → List Ev × End := writer (socketEach ts)
/-- (`hex.cpp:94-113`.) -/
def hexWriter (m : Mode) (ts : Bool) : Text → List Ev × End := writer (hexEach m ts)

/-! ## What is received -/

/-- The result of `read(s,1)` of a serial port: a byte, nothing within the time limit, or -1. -/
inductive Got where
  | byte (c : Char)
  | nothing
  | failed
  deriving DecidableEq, Repr

/-- The loop of the readers of serial ports (`serial.cpp:127-150`; `hex.cpp:135-150` with `hex`), for the given results.
A failed `read` throws in a debug build (`serial_pos.hpp:509-513`); in a release build its -1 becomes the
largest `unsigned long`, and the loop that shows the bytes leaves the buffer of 255 characters. -/
def serialLoop (m : Mode) (hex ts : Bool) : List Got → List Ev × End
  | [] => ([], .running)
  | .byte c :: rest =>
    let r := serialLoop m hex ts rest
    ((if ts then [.stamp, .time] else []) ++
      (if hex then [.show (Form.hexText 1 c.toNat), .show [' '], .show ['\n']] else [.show [c]]) ++ r.1, r.2)
  | .nothing :: rest => serialLoop m hex ts rest
  | .failed :: _ => ([], match m with | .debug => .terminated | .release => .undefined)

/-- `socket_server.cpp:76`, `socket_client.cpp:76`, `serial.cpp:125`. -/
def header (hex : Bool) : Ev := .show ((if hex then "Hex format" else "Ascii format").toList ++ ['\n'])

/-- `serial.cpp:121-151`. -/
def serialReader (m : Mode) (hex ts : Bool) (got : List Got) : List Ev × End :=
  (header hex :: (serialLoop m hex ts got).1, (serialLoop m hex ts got).2)

/-- `hex.cpp:131-151`. -/
def hexReader (m : Mode) (ts : Bool) (got : List Got) : List Ev × End := serialLoop m true ts got

/-- The loop of the readers of sockets (`socket_server.cpp:78-111`, `socket_client.cpp:78-111`): `read` is that of the socket,
`msg` the text shown when the other side hangs up, `nl` the member `new_line`. -/
def socketLoop (read : Sock → Sys → Res Sock Int) (msg : Text) (hex ts : Bool) :
    Sock → Bool → List (Sys × Char) → List Ev × End
  | _, _, [] => ([], .running)
  | s, nl, (sys, c) :: rest =>
    match read s sys with
    | .ub => ([], .undefined)
    | .throw _ _ => ([], .terminated)
    | .ok s n =>
      if 0 < n then
        let es : List Ev :=
          if hex then
            (if ts then (if nl then [.stamp] else []) ++ [.time] else []) ++ [.show (Form.hexText 1 c.toNat), .show ['\n']]
          else (if ts && nl then [.stamp, .time] else []) ++ [.show [c]]
        let nl := if ts then (if nl then false else if c = '\n' then true else nl) else nl
        let r := socketLoop read msg hex ts s nl rest
        (es ++ r.1, r.2)
      else if n < 0 ∧ n = hungUp then ([.show msg], .left)
      else socketLoop read msg hex ts s nl rest

/-- `socket_server.cpp:69-113`: `exit` when the client hangs up. -/
def serverReader (m : Mode) (flagOf : Errno → Flag) (hex ts : Bool) (s : Sock) (got : List (Sys × Char)) : List Ev × End :=
  let r := socketLoop (Server.read m flagOf) "Client Hung Up.\n".toList hex ts s true got
  (header hex :: r.1, r.2)

/-- `socket_client.cpp:69-113`. -/
def clientReader (m : Mode) (flagOf : Errno → Flag) (hex ts : Bool) (s : Sock) (got : List (Sys × Char)) : List Ev × End :=
  let r := socketLoop (Client.read m flagOf) "Server Hung Up.\n".toList hex ts s true got
  (header hex :: r.1, r.2)

end Ecl.Terminal
