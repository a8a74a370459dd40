import Verif.Spec.Terminals
import Mathlib.Data.List.Forall2
import Mathlib.Tactic.NormNum
import Mathlib.Tactic.Conv

/-!
# C104: the terminal programs show what is received
-/
set_option autoImplicit false
set_option linter.unusedSimpArgs false

namespace Ecl.Props
open Ecl Ecl.Terminal Ecl.Spec Ecl.Socket

/-! ## Serial ports -/

private theorem hexByte (c : Char) : HexByte c (Form.hexText 1 c.toNat) := by
  have hd : ∀ d : Nat, d < 16 → Form.hexString.getD d '?' = Nat.digitChar d := by decide
  refine ⟨c.toNat / 16 % 16, c.toNat % 16, ?_, by omega, by omega, by omega⟩
  have e1 : ((c.toNat : Int) / 2 ^ (1 * 4) % 16).toNat = c.toNat / 16 % 16 := by norm_num; omega
  have e0 : ((c.toNat : Int) / 2 ^ (0 * 4) % 16).toNat = c.toNat % 16 := by norm_num; omega
  simp only [Form.hexText, show (List.range (2 * 1)).reverse = [1, 0] from rfl, List.map_cons, List.map_nil, e1, e0]
  rw [hd _ (by omega), hd _ (by omega)]

/-- **C104**: the terminal of a serial port shows exactly the bytes that are received, in order; with time stamps the
current time before each; as long as reading does not fail. -/
theorem C104_serial_partial (m : Mode) (ts : Bool) (got : List Got) (h : .failed ∉ got) :
    serialReader m false ts got = (.show "Ascii format\n".toList ::
      ((received got).map fun c => (if ts then [.stamp, .time] else []) ++ [.show [c]]).flatten, .running) := by
  have gen : serialLoop m false ts got =
      (((received got).map fun c => (if ts then [.stamp, .time] else []) ++ [.show [c]]).flatten, .running) := by
    induction got with
    | nil => rfl
    | cons g rest ih =>
      have ih := ih (fun hm => h (by simp [hm]))
      cases g with
      | byte c => simp only [serialLoop, ih]; simp [received]
      | nothing => simp only [serialLoop, ih]; simp [received]
      | failed => simp at h
  unfold serialReader header
  rw [gen]
  rfl

/-- **C104**: in hexadecimal, every byte is shown on a line of its own, with the current time before it if time stamps are
asked for. -/
theorem C104_hex_partial (m : Mode) (ts : Bool) (got : List Got) (h : .failed ∉ got) :
    ∃ ls, List.Forall₂ HexByte (received got) ls ∧
      hexReader m ts got = ((ls.map fun l => (if ts then [.stamp, .time] else []) ++ [.show l, .show [' '], .show ['\n']]).flatten,
        .running) ∧
      serialReader m true ts got = (.show "Hex format\n".toList :: (hexReader m ts got).1, .running) := by
  refine ⟨(received got).map fun c => Form.hexText 1 c.toNat, ?_, ?_⟩
  · generalize received got = r
    induction r with
    | nil => exact .nil
    | cons c r ih => exact .cons (hexByte c) ih
  · have gen : serialLoop m true ts got = ((((received got).map fun c => Form.hexText 1 c.toNat).map fun l =>
        (if ts then [.stamp, .time] else []) ++ [.show l, .show [' '], .show ['\n']]).flatten, .running) := by
      induction got with
      | nil => rfl
      | cons g rest ih =>
        have ih := ih (fun hm => h (by simp [hm]))
        cases g with
        | byte c => simp only [serialLoop, ih]; simp [received]
        | nothing => simp only [serialLoop, ih]; simp [received]
        | failed => simp at h
    refine ⟨gen, ?_⟩
    unfold serialReader header hexReader
    rw [gen]
    rfl

example : .failed ∉ [Got.byte 'a', .nothing, .byte '\n'] := by decide
example : hexReader .debug false [.byte 'a', .nothing, .byte '\n'] =
    ([.show "0x61".toList, .show [' '], .show ['\n'], .show "0x0a".toList, .show [' '], .show ['\n']], .running) := by decide +kernel

/-- **C104** fails: when reading fails, for example because the port was unplugged, a debug build ends by an exception that
nobody catches, and a release build shows memory beyond its buffer. -/
theorem C104_fails_serial (hex ts : Bool) (got rest : List Got) (h : .failed ∉ got) :
    (serialReader .debug hex ts (got ++ .failed :: rest)).2 = .terminated ∧
    (serialReader .release hex ts (got ++ .failed :: rest)).2 = .undefined := by
  unfold serialReader
  dsimp only
  induction got with
  | nil => exact ⟨rfl, rfl⟩
  | cons g got ih =>
    have ih := ih (fun hm => h (by simp [hm]))
    cases g with
    | byte c => exact ih
    | nothing => exact ih
    | failed => simp at h

/-! ## Sockets -/

/-- Reading a byte from an open socket. -/
private theorem read_one (m : Mode) (flagOf : Errno → Flag) (s : Sock) (h : s.isOpen = true) :
    Server.read m flagOf s (.ret 1) = .ok { s with err := .noError } 1 ∧
    Client.read m flagOf s (.ret 1) = .ok { s with err := .noError } 1 := by
  simp [Server.read, Client.read, h, s32]

private theorem loop_bytes (read : Sock → Sys → Res Sock Int) (msg : Text) (hex ts : Bool)
    (hr : ∀ s : Sock, s.isOpen = true → read s (.ret 1) = .ok { s with err := .noError } 1) (c : Char) (s : Sock)
    (hs : s.isOpen = true) (nl : Bool) (rest : List (Sys × Char)) :
    ∃ s' : Sock, s'.isOpen = true ∧ socketLoop read msg hex ts s nl ((.ret 1, c) :: rest) =
      ((if hex then
          (if ts then (if nl then [.stamp] else []) ++ [.time] else []) ++ [.show (Form.hexText 1 c.toNat), .show ['\n']]
        else (if ts && nl then [.stamp, .time] else []) ++ [.show [c]]) ++
        (socketLoop read msg hex ts s' (if ts then (if nl then false else if c = '\n' then true else nl) else nl) rest).1,
       (socketLoop read msg hex ts s' (if ts then (if nl then false else if c = '\n' then true else nl) else nl) rest).2) := by
  refine ⟨{ s with err := .noError }, hs, ?_⟩
  conv_lhs => rw [socketLoop]
  rw [hr s hs]
  simp only [show (0 : Int) < 1 by decide, if_true]

private theorem ascii_plain (read : Sock → Sys → Res Sock Int) (msg : Text)
    (hr : ∀ s : Sock, s.isOpen = true → read s (.ret 1) = .ok { s with err := .noError } 1) :
    ∀ (t : List Char) (s : Sock) (nl : Bool), s.isOpen = true →
      socketLoop read msg false false s nl (t.map fun c => (.ret 1, c)) = (t.map fun c => .show [c], .running)
  | [], _, _, _ => rfl
  | c :: t, s, nl, hs => by
    obtain ⟨s', h1, h2⟩ := loop_bytes read msg false false hr c s hs nl (t.map fun c => (.ret 1, c))
    rw [List.map_cons, h2]
    simp [ascii_plain read msg hr t s' nl h1]

private theorem ascii_timed (read : Sock → Sys → Res Sock Int) (msg : Text)
    (hr : ∀ s : Sock, s.isOpen = true → read s (.ret 1) = .ok { s with err := .noError } 1) :
    ∀ (t : List Char) (s : Sock) (nl : Bool), s.isOpen = true → (nl = true → t.head? ≠ some '\n') →
      (∀ a b, t ≠ a ++ '\n' :: '\n' :: b) →
      socketLoop read msg false true s nl (t.map fun c => (.ret 1, c)) = (timedLines nl t, .running)
  | [], _, _, _, _, _ => rfl
  | c :: t, s, nl, hs, hh, hn => by
    obtain ⟨s', h1, h2⟩ := loop_bytes read msg false true hr c s hs nl (t.map fun c => (.ret 1, c))
    rw [List.map_cons, h2]
    have e : (if nl then false else if c = '\n' then true else nl) = (c == '\n') := by
      cases nl
      · by_cases hc : c = '\n' <;> simp [hc]
      · have : c ≠ '\n' := by simpa using hh rfl
        simp [this]
    simp only [if_true, e]
    rw [ascii_timed read msg hr t s' (c == '\n') h1 ?_ ?_]
    · cases nl <;> simp [timedLines]
    · intro hc h
      have hc : c = '\n' := by simpa using hc
      cases t with
      | nil => simp at h
      | cons d t =>
        have hd : d = '\n' := by simpa using h
        exact hn [] t (by simp [hc, hd])
    · intro a b h
      exact hn (c :: a) b (by simp [h])

/-- **C104**: the terminals of sockets show exactly the text that is received. -/
theorem C104_sockets (m : Mode) (flagOf : Errno → Flag) (s : Sock) (hs : s.isOpen = true) (t : List Char) :
    serverReader m flagOf false false s (t.map fun c => (.ret 1, c)) =
      (.show "Ascii format\n".toList :: t.map fun c => .show [c], .running) ∧
    clientReader m flagOf false false s (t.map fun c => (.ret 1, c)) =
      (.show "Ascii format\n".toList :: t.map fun c => .show [c], .running) := by
  constructor
  · unfold serverReader header
    simp only [ascii_plain (Server.read m flagOf) _ (fun s h => (read_one m flagOf s h).1) t s true hs]
    rfl
  · unfold clientReader header
    simp only [ascii_plain (Client.read m flagOf) _ (fun s h => (read_one m flagOf s h).2) t s true hs]
    rfl

/-- **C104** (partial): with time stamps, the current time is shown before each line, if no line is empty. -/
theorem C104_timed_partial (m : Mode) (flagOf : Errno → Flag) (s : Sock) (hs : s.isOpen = true) (t : List Char)
    (ht : NoEmptyLine t) :
    serverReader m flagOf false true s (t.map fun c => (.ret 1, c)) =
      (.show "Ascii format\n".toList :: timedLines true t, .running) ∧
    clientReader m flagOf false true s (t.map fun c => (.ret 1, c)) =
      (.show "Ascii format\n".toList :: timedLines true t, .running) := by
  constructor
  · unfold serverReader header
    simp only [ascii_timed (Server.read m flagOf) _ (fun s h => (read_one m flagOf s h).1) t s true hs (fun _ => ht.1) ht.2]
    rfl
  · unfold clientReader header
    simp only [ascii_timed (Client.read m flagOf) _ (fun s h => (read_one m flagOf s h).2) t s true hs (fun _ => ht.1) ht.2]
    rfl

example : NoEmptyLine "a\nb".toList := by
  refine ⟨by decide, fun a b h => ?_⟩
  rcases a with _ | ⟨x, _ | ⟨y, _ | ⟨z, a⟩⟩⟩ <;> simp at h
example : timedLines true "a\nb".toList = [.stamp, .time, .show ['a'], .show ['\n'], .stamp, .time, .show ['b']] := by decide

/-- **C104** fails: after an empty line the next line gets no time stamp. -/
theorem C104_fails_empty_line (m : Mode) (flagOf : Errno → Flag) (s : Sock) (hs : s.isOpen = true) (c : Char) (t : List Char) :
    ∃ es, serverReader m flagOf false true s (('\n' :: c :: t).map fun c => (.ret 1, c)) =
        (.show "Ascii format\n".toList :: .stamp :: .time :: .show ['\n'] :: .show [c] :: es, .running) ∧
      timedLines true ('\n' :: c :: t) = .stamp :: .time :: .show ['\n'] :: .stamp :: .time :: .show [c] :: timedLines (c == '\n') t := by
  have hr := fun s h => (read_one m flagOf s h).1
  obtain ⟨s1, h1, h2⟩ := loop_bytes (Server.read m flagOf) "Client Hung Up.\n".toList false true hr '\n' s hs true
    ((c :: t).map fun c => (.ret 1, c))
  obtain ⟨s2, h3, h4⟩ := loop_bytes (Server.read m flagOf) "Client Hung Up.\n".toList false true hr c s1 h1 false
    (t.map fun c => (.ret 1, c))
  have run : ∀ (t : List Char) (s : Sock) (nl : Bool), s.isOpen = true →
      (socketLoop (Server.read m flagOf) "Client Hung Up.\n".toList false true s nl (t.map fun c => (.ret 1, c))).2 = .running := by
    intro t
    induction t with
    | nil => intros; rfl
    | cons c t ih =>
      intro s nl hs
      obtain ⟨s', g1, g2⟩ := loop_bytes (Server.read m flagOf) "Client Hung Up.\n".toList false true hr c s hs nl
        (t.map fun c => (.ret 1, c))
      rw [List.map_cons, g2]
      exact ih s' _ g1
  refine ⟨(socketLoop (Server.read m flagOf) "Client Hung Up.\n".toList false true s2 (if c = '\n' then true else false)
    (t.map fun c => (.ret 1, c))).1, ?_, by simp [timedLines]⟩
  unfold serverReader header
  rw [List.map_cons, h2, List.map_cons]
  simp only [if_true, Bool.true_and]
  rw [h4]
  simp only [if_true, Bool.false_eq_true, if_false, Bool.and_false, List.nil_append, run _ s2 _ h3]
  simp

/-- **C104** fails: in hexadecimal with time stamps every byte is shown with a time, but the second byte with that of the
first. -/
theorem C104_fails_stale_time (m : Mode) (flagOf : Errno → Flag) (s : Sock) (hs : s.isOpen = true) (a b : Char) :
    serverReader m flagOf true true s [(.ret 1, a), (.ret 1, b)] =
      ([.show "Hex format\n".toList, .stamp, .time, .show (Form.hexText 1 a.toNat), .show ['\n'],
        .time, .show (Form.hexText 1 b.toNat), .show ['\n']], .running) := by
  have hr := fun s h => (read_one m flagOf s h).1
  obtain ⟨s1, h1, h2⟩ := loop_bytes (Server.read m flagOf) "Client Hung Up.\n".toList true true hr a s hs true [(.ret 1, b)]
  obtain ⟨s2, h3, h4⟩ := loop_bytes (Server.read m flagOf) "Client Hung Up.\n".toList true true hr b s1 h1 false []
  unfold serverReader header
  rw [h2]
  simp only [if_true]
  rw [h4]
  simp [socketLoop]

/-- **C104**: a terminal notices that the other side hangs up, says so and stops. -/
theorem C104_hang_up (m : Mode) (flagOf : Errno → Flag) (hex ts : Bool) (s : Sock) (hs : s.isOpen = true) (t : List Char)
    (c : Char) (rest : List (Sys × Char)) :
    (∃ es, serverReader m flagOf hex ts s ((t.map fun c => (.ret 1, c)) ++ (.ret 0, c) :: rest) =
      (es ++ [.show "Client Hung Up.\n".toList], .left)) ∧
    (∃ es, clientReader m flagOf hex ts s ((t.map fun c => (.ret 1, c)) ++ (.ret 0, c) :: rest) =
      (es ++ [.show "Server Hung Up.\n".toList], .left)) := by
  have gen : ∀ (read : Sock → Sys → Res Sock Int) (msg : Text)
      (_ : ∀ s : Sock, s.isOpen = true → read s (.ret 1) = .ok { s with err := .noError } 1)
      (_ : ∀ s : Sock, s.isOpen = true → read s (.ret 0) = .ok s.close hungUp) (t : List Char) (s : Sock) (nl : Bool),
      s.isOpen = true → ∃ es, socketLoop read msg hex ts s nl ((t.map fun c => (.ret 1, c)) ++ (.ret 0, c) :: rest) =
        (es ++ [.show msg], .left) := by
    intro read msg h1 h0 t
    induction t with
    | nil =>
      intro s nl hs
      refine ⟨[], ?_⟩
      simp [socketLoop, h0 s hs, hungUp]
    | cons d t ih =>
      intro s nl hs
      obtain ⟨s', g1, g2⟩ := loop_bytes read msg hex ts h1 d s hs nl ((t.map fun c => (.ret 1, c)) ++ (.ret 0, c) :: rest)
      obtain ⟨es, g3⟩ := ih s' (if ts then (if nl then false else if d = '\n' then true else nl) else nl) g1
      rw [List.map_cons, List.cons_append, g2, g3]
      exact ⟨_ ++ es, by rw [List.append_assoc]⟩
  constructor
  · obtain ⟨es, h⟩ := gen (Server.read m flagOf) "Client Hung Up.\n".toList (fun s h => (read_one m flagOf s h).1)
      (fun s h => by simp [Server.read, h, s32]) t s true hs
    exact ⟨header hex :: es, by unfold serverReader; simp only [h, List.cons_append]⟩
  · obtain ⟨es, h⟩ := gen (Client.read m flagOf) "Server Hung Up.\n".toList (fun s h => (read_one m flagOf s h).2)
      (fun s h => by simp [Client.read, h, s32]) t s true hs
    exact ⟨header hex :: es, by unfold clientReader; simp only [h, List.cons_append]⟩

/-- **C104** fails: when the connection is reset, the client says that the server hung up, but a debug build of
the server ends by an exception that nobody catches. -/
theorem C104_fails_reset (flagOf : Errno → Flag) (hex ts : Bool) (s : Sock) (hs : s.isOpen = true) (c : Char) :
    serverReader .debug flagOf hex ts s [(.err .connReset, c)] = ([header hex], .terminated) ∧
    clientReader .debug flagOf hex ts s [(.err .connReset, c)] = ([header hex, .show "Server Hung Up.\n".toList], .left) := by
  simp [serverReader, clientReader, socketLoop, Server.read, Client.read, hs, fail, hungUp]

end Ecl.Props
