import Verif.Spec.Link

/-!
# C28: sockets report the connection state
-/
set_option autoImplicit false
set_option linter.unusedSimpArgs false

namespace Ecl.Props
open Ecl Ecl.Socket

private theorem s32_nat (k : Nat) (h : k < 2147483648) : s32 k = (k : Int) ∧ ¬ (k : Int) < 0 :=
  ⟨s32_small h, by omega⟩

/-- **C28, partial (client)**: for every history of reads, peeks and writes of 1 to `2^31 - 1` bytes and
everything the system may answer, the client reports exactly what the specification says: positive counts
for bytes, -3 once when the peer is found gone, -2 ever after, -1 or an exception for other failures.
Missing: requests of 0 bytes (`C28_fails_empty_read`) and of `2^31` bytes or more (`C28_fails_large_read`),
`remaining()` (`C28_fails_remaining`). -/
theorem C28_client_partial (m : Mode) (flagOf : Errno → Flag) (ops : List Op) (hs : ∀ op ∈ ops, Sane op)
    (s : Sock) (hs0 : s.isOpen = true) :
    ∃ s', runOps (clientStep m flagOf) s ops = some (s', (runSpec (linkStep m flagOf) true ops).2) ∧
      s'.isOpen = (runSpec (linkStep m flagOf) true ops).1 := by
  have hl : ∀ (ops : List Op) (up : Bool), (∀ op ∈ ops, Sane op) →
      Legal (linkStep m flagOf) (fun _ op => Sane op) up ops := by
    intro ops
    induction ops with
    | nil => intro _ _; trivial
    | cons op ops ih => intro up h; exact ⟨h op (by simp), ih _ fun o ho => h o (by simp [ho])⟩
  apply refines (clientStep m flagOf) (linkStep m flagOf) (fun _ op => Sane op)
    (fun s up => s.isOpen = up) _ ops s true hs0 (hl ops true hs)
  clear hs hs0 hl s ops
  intro s up op hR hsane
  subst hR
  cases ho : s.isOpen with
  | false =>
    cases op <;>
      simp [clientStep, Client.read, Client.peek, Client.write, linkStep, ho, Res.obs, disconnected]
  | true =>
    cases op with
    | read n r =>
      cases r with
      | ret k =>
        obtain ⟨e1, e2⟩ := s32_nat k (by have := hsane.2.2 k rfl; have := hsane.2.1; omega)
        by_cases hk : k = 0
        · subst hk
          simp [clientStep, Client.read, linkStep, ho, found, Res.obs, e1, hungUp, Sock.close]
        · simp [clientStep, Client.read, linkStep, ho, found, Res.obs, e1, e2, hk]
      | err e => cases e <;> cases m <;>
          simp [clientStep, Client.read, linkStep, ho, found, Res.obs, hungUp, Sock.close, fail, problem]
    | peek n r =>
      cases r with
      | ret k =>
        obtain ⟨e1, e2⟩ := s32_nat k (by have := hsane.2.2 k rfl; have := hsane.2.1; omega)
        simp [clientStep, Client.peek, linkStep, ho, found, Res.obs, e1, e2]
      | err e => cases e <;> cases m <;>
          simp [clientStep, Client.peek, linkStep, ho, found, Res.obs, hungUp, Sock.close, fail, problem]
    | write n r =>
      cases r with
      | ret k =>
        obtain ⟨e1, e2⟩ := s32_nat k (by have := hsane.2.2 k rfl; have := hsane.2.1; omega)
        simp [clientStep, Client.write, linkStep, ho, found, Res.obs, e1, e2]
      | err e => cases e <;> cases m <;>
          simp [clientStep, Client.write, linkStep, ho, found, Res.obs, hungUp, Sock.close, fail, problem]

-- non-vacuity: bytes, then the peer goes away, then two more calls
example : (∀ op ∈ [Op.read 8 (.ret 5), .write 3 (.ret 3), .read 8 (.ret 0), .write 3 (.ret 3),
      .read 1 (.ret 1)], Sane op) ∧
    (runSpec (linkStep .debug fun _ => .unknownError) true [Op.read 8 (.ret 5), .write 3 (.ret 3),
      .read 8 (.ret 0), .write 3 (.ret 3), .read 1 (.ret 1)]).2 =
      [.ok 5, .ok 3, .ok (-3), .ok (-2), .ok (-2)] := by
  refine ⟨?_, rfl⟩
  intro op hop
  simp only [List.mem_cons, List.not_mem_nil, or_false] at hop
  rcases hop with rfl | rfl | rfl | rfl | rfl <;> simp [Sane]

/-- **C28, partial (server)**: the same for every history of *reads* by the server in which the connection
is not reset.  Missing: resets (`C28_fails_server_reset`), writing and peeking after the connection went
down (`C28_fails_server_closed`). -/
theorem C28_server_partial (m : Mode) (flagOf : Errno → Flag) (ops : List Op) (hs : ∀ op ∈ ops, Sane op)
    (hr : ∀ op ∈ ops, ∃ n r, op = .read n r ∧ r ≠ .err .connReset) (s : Sock) (hs0 : s.isOpen = true) :
    ∃ s', runOps (serverStep m flagOf) s ops = some (s', (runSpec (linkStep m flagOf) true ops).2) ∧
      s'.isOpen = (runSpec (linkStep m flagOf) true ops).1 := by
  let ok (op : Op) : Prop := Sane op ∧ ∃ n r, op = .read n r ∧ r ≠ .err .connReset
  have hl : ∀ (ops : List Op) (up : Bool), (∀ op ∈ ops, ok op) →
      Legal (linkStep m flagOf) (fun _ op => ok op) up ops := by
    intro ops
    induction ops with
    | nil => intro _ _; trivial
    | cons op ops ih => intro up h; exact ⟨h op (by simp), ih _ fun o ho => h o (by simp [ho])⟩
  apply refines (serverStep m flagOf) (linkStep m flagOf) (fun _ op => ok op)
    (fun s up => s.isOpen = up) _ ops s true hs0 (hl ops true fun o ho => ⟨hs o ho, hr o ho⟩)
  clear hs hs0 hl s hr ops
  intro s up op hR hok
  subst hR
  obtain ⟨hsane, n, r, rfl, hne⟩ := hok
  cases ho : s.isOpen with
  | false => simp [serverStep, Server.read, linkStep, ho, Res.obs, disconnected]
  | true =>
    cases r with
    | ret k =>
      obtain ⟨e1, e2⟩ := s32_nat k (by have := hsane.2.2 k rfl; have := hsane.2.1; omega)
      by_cases hk : k = 0
      · subst hk
        simp [serverStep, Server.read, linkStep, ho, found, Res.obs, e1, hungUp, Sock.close]
      · simp [serverStep, Server.read, linkStep, ho, found, Res.obs, e1, e2, hk]
    | err e => cases e <;> cases m <;>
        simp_all [serverStep, Server.read, linkStep, ho, found, Res.obs, fail, problem]

/-- **C28**: no read or write of the client ever reports success on a closed connection, whatever the
system would answer. -/
theorem C28_client_closed (m : Mode) (flagOf : Errno → Flag) (s : Sock) (h : s.isOpen = false) (op : Op) :
    clientStep m flagOf s op = .ok s (-2) := by
  cases op <;> simp [clientStep, Client.read, Client.peek, Client.write, h, disconnected]

/-- **C28, refuted**: the server's `write` and `peek` do not look at the state of the connection: after a
hang-up was reported they still call the system on the old descriptor and report its success. -/
theorem C28_fails_server_closed (m : Mode) (flagOf : Errno → Flag) (s : Sock) (h : s.isOpen = true) (n k : Nat)
    (hk : k < 2147483648) :
    ∃ s', runOps (serverStep m flagOf) s [.read n (.ret 0), .write n (.ret k), .peek n (.ret k)] =
      some (s', [.ok (-3), .ok k, .ok k]) ∧ s'.isOpen = false := by
  obtain ⟨e1, e2⟩ := s32_nat k hk
  have e0 : s32 0 = 0 := rfl
  simp [runOps, serverStep, Server.read, Server.write, Server.peek, h, e1, e2, e0, hungUp, Sock.close]

/-- **C28, refuted**: a connection reset by the peer leaves the server's connection "open"; every read
reports a problem (-1) again, never the disconnection. -/
theorem C28_fails_server_reset (flagOf : Errno → Flag) (s : Sock) (h : s.isOpen = true) (n k : Nat) :
    ∃ s', runOps (serverStep .release flagOf) s (List.replicate k (.read n (.err .connReset))) =
      some (s', List.replicate k (.ok (-1))) ∧ s'.isOpen = true := by
  induction k generalizing s with
  | zero => exact ⟨s, rfl, h⟩
  | succ k ih =>
    obtain ⟨s', h1, h2⟩ := ih { s with err := flagOf .connReset } h
    simp only [h] at h1
    refine ⟨s', ?_, h2⟩
    rw [List.replicate_succ, runOps_cons]
    simp [serverStep, Server.read, h, fail, Res.obs, h1, problem, List.replicate_succ]

/-- **C28, refuted**: asking for zero bytes is taken for a hang-up and closes a healthy connection (`recv`
returns 0 for it), on both sides. -/
theorem C28_fails_empty_read (m : Mode) (flagOf : Errno → Flag) (s : Sock) (h : s.isOpen = true) :
    clientStep m flagOf s (.read 0 (.ret 0)) = .ok s.close (-3) ∧
      serverStep m flagOf s (.read 0 (.ret 0)) = .ok s.close (-3) := by
  constructor <;> simp [clientStep, serverStep, Client.read, Server.read, h, s32, hungUp]

/-- **C28, refuted**: a read that delivers `2^31` bytes is reported as a failure, and one that delivers
`2^32` bytes as a hang-up. -/
theorem C28_fails_large_read (flagOf : Errno → Flag) (s : Sock) (h : s.isOpen = true) :
    clientStep .release flagOf s (.read 2147483648 (.ret 2147483648)) =
        .ok { s with err := flagOf (.other 0) } (-1) ∧
      clientStep .release flagOf s (.read 4294967296 (.ret 4294967296)) = .ok s.close (-3) := by
  constructor <;> simp [clientStep, Client.read, h, s32, hungUp, fail, problem]

/-- **C28, partial**: `remaining()` is right if the memory of its result variable happens to be clear. -/
theorem C28_remaining_partial (m : Mode) (flagOf : Errno → Flag) (s : Sock) (h : s.isOpen = true) (k junk : Nat)
    (hj : junk < 4294967296) :
    Client.remaining m flagOf s (.ret k) junk = .ok { s with err := .noError } k ∧
      Server.remaining m flagOf s (.ret k) junk = .ok { s with err := .noError } k := by
  have : junk / 4294967296 = 0 := by omega
  simp [Client.remaining, Server.remaining, h, this]

/-- **C28, refuted**: `remaining()` otherwise depends on uninitialised memory; and on the client side a
failing `ioctl` is not reported in release mode: the uninitialised memory is returned with `NoError`. -/
theorem C28_fails_remaining (flagOf : Errno → Flag) (s : Sock) (h : s.isOpen = true) (e : Errno) (junk : Nat) :
    (∃ j, Client.remaining .release flagOf s (.ret 5) j = .ok { s with err := .noError } 4294967301) ∧
      Client.remaining .release flagOf s (.err e) junk = .ok { s with err := .noError } junk := by
  refine ⟨⟨4294967296, ?_⟩, ?_⟩ <;> simp [Client.remaining, h]

/-- **C28, partial**: the error status after a call in release mode.  A read or peek on an open client, and any call on a
server, that returns a count clears it; a call that returns -1 leaves the flag of the failure.  Missing: a client's write
(`C28_fails_status`). -/
theorem C28_status_partial (flagOf : Errno → Flag) (s s' : Sock) (op : Op) (v : Int) :
    (s.isOpen = true → clientStep .release flagOf s op = .ok s' v →
      ((0 ≤ v → (∀ n r, op ≠ .write n r) → s'.err = .noError) ∧ (v = -1 → ∃ e, s'.err = flagOf e))) ∧
    (serverStep .release flagOf s op = .ok s' v →
      ((0 ≤ v → s'.err = .noError) ∧ (v = -1 → ∃ e, s'.err = flagOf e))) := by
  constructor
  · intro ho h
    rcases op with ⟨n, r⟩ | ⟨n, r⟩ | ⟨n, r⟩ <;> rcases r with k | e
    · simp only [clientStep, Client.read, ho, not_true_eq_false, if_false] at h
      split at h
      · cases h; simp [hungUp]
      · split at h
        · cases h; exact ⟨fun h => by simp [problem] at h, fun _ => ⟨_, rfl⟩⟩
        · cases h; exact ⟨fun _ _ => rfl, fun h => by omega⟩
    · cases e <;> simp [clientStep, Client.read, ho, fail, problem, hungUp] at h <;> obtain ⟨rfl, rfl⟩ := h <;> simp
      · exact ⟨_, rfl⟩
      · exact ⟨_, rfl⟩
    · simp only [clientStep, Client.peek, ho, not_true_eq_false, if_false] at h
      split at h
      · cases h; exact ⟨fun h => by simp [problem] at h, fun _ => ⟨_, rfl⟩⟩
      · cases h; exact ⟨fun _ _ => rfl, fun h => by omega⟩
    · simp only [clientStep, Client.peek, ho, not_true_eq_false, if_false, fail] at h
      cases h; exact ⟨fun h => by simp [problem] at h, fun _ => ⟨_, rfl⟩⟩
    · refine ⟨fun _ h => absurd rfl (h n (.ret k)), fun hv => ?_⟩
      simp only [clientStep, Client.write, ho, not_true_eq_false, if_false] at h
      split at h
      · cases h; exact ⟨_, rfl⟩
      · cases h; omega
    · refine ⟨fun _ h => absurd rfl (h n (.err e)), fun hv => ?_⟩
      cases e <;> simp [clientStep, Client.write, ho, fail, problem, hungUp] at h <;> obtain ⟨rfl, rfl⟩ := h
      · exact ⟨_, rfl⟩
      · exact absurd hv (by decide)
      · exact ⟨_, rfl⟩
  · intro h
    rcases op with ⟨n, r⟩ | ⟨n, r⟩ | ⟨n, r⟩ <;> rcases r with k | e
    · simp only [serverStep, Server.read] at h
      split at h
      · cases h; simp [disconnected]
      · split at h
        · cases h; exact ⟨fun h => by simp [problem] at h, fun _ => ⟨_, rfl⟩⟩
        · split at h
          · cases h; simp [hungUp]
          · cases h; exact ⟨fun _ => rfl, fun h => by omega⟩
    · simp only [serverStep, Server.read, fail] at h
      split at h
      · cases h; simp [disconnected]
      · cases h; exact ⟨fun h => by simp [problem] at h, fun _ => ⟨_, rfl⟩⟩
    · simp only [serverStep, Server.peek] at h
      split at h
      · cases h; exact ⟨fun h => by simp [problem] at h, fun _ => ⟨_, rfl⟩⟩
      · cases h; exact ⟨fun _ => rfl, fun h => by omega⟩
    · simp only [serverStep, Server.peek, fail] at h
      cases h; exact ⟨fun h => by simp [problem] at h, fun _ => ⟨_, rfl⟩⟩
    · simp only [serverStep, Server.write] at h
      split at h
      · cases h; exact ⟨fun h => by simp [problem] at h, fun _ => ⟨_, rfl⟩⟩
      · cases h; exact ⟨fun _ => rfl, fun h => by omega⟩
    · cases e <;> simp [serverStep, Server.write, fail, problem, hungUp] at h <;> obtain ⟨rfl, rfl⟩ := h <;> simp
      · exact ⟨_, rfl⟩
      · exact ⟨_, rfl⟩

/-- **C28, refuted**: a client's write that succeeds leaves the error status of an earlier failure in place. -/
theorem C28_fails_status (flagOf : Errno → Flag) (s : Sock) (h : s.isOpen = true) (e : Errno) (n k : Nat)
    (hk : k < 2147483648) :
    ∃ s', runOps (clientStep .release flagOf) s [.peek n (.err e), .write n (.ret k)] =
      some (s', [.ok (-1), .ok (k : Int)]) ∧ s'.err = flagOf e := by
  obtain ⟨e1, e2⟩ := s32_nat k hk
  refine ⟨{ s with err := flagOf e }, ?_, rfl⟩
  simp [runOps, clientStep, Client.peek, Client.write, h, fail, problem, e1, e2]

/-- A peek that fails, then one that succeeds. -/
example : clientStep .release (fun _ => .interruptedError) ⟨true, .noError⟩ (.peek 1 (.err (.other 4))) =
      .ok ⟨true, .interruptedError⟩ (-1) ∧
    clientStep .release (fun _ => .interruptedError) ⟨true, .interruptedError⟩ (.peek 1 (.ret 1)) = .ok ⟨true, .noError⟩ 1 := by
  decide

end Ecl.Props
