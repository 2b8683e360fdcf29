import Verif.Model.MsgFilter
/-!
# C10, C41, part of C09 and C07: which messages are let through

For every message number and every keying state. `FState.expect = some x` with `x ≠ 0` is a key
exchange whose next message is known; `some 0` and `none` are a key exchange without such a record.
-/

namespace Props.Filter
open Wolf Wolf.MsgFilter

/-- Transport-layer key exchange messages (RFC 4253: 20-29 negotiation, 30-49 method). -/
def kexMsg (m : Nat) : Prop := 20 ≤ m ∧ m ≤ 49

theorem trans_server {s : FState} {m : Nat} (h : kexMsg m) :
    isMessageAllowedServer s m = match transBlock s m with
      | some r => r
      | none => (serverPhase s m, s.expect) := by
  unfold kexMsg at h
  unfold isMessageAllowedServer
  rw [if_neg (by omega), if_neg (by omega), if_neg (by omega), if_pos (by omega)]
  cases transBlock s m <;> rfl

theorem trans_client {s : FState} {m : Nat} (h : kexMsg m) :
    isMessageAllowedClient s m = match transBlock s m with
      | some r => r
      | none => (clientPhase s m, s.expect) := by
  unfold kexMsg at h
  unfold isMessageAllowedClient
  rw [if_neg (by omega), if_neg (by omega), if_neg (by omega), if_pos (by omega)]
  cases transBlock s m <;> rfl

/-- C10: outside a key exchange only KEXINIT is let through, on either side. -/
theorem C10_outside_only_kexinit (s : FState) (m : Nat) (hp : s.peerKeying = false) (hm : kexMsg m) :
    ((isMessageAllowedServer s m).1 = true ↔ m = 20) ∧
    ((isMessageAllowedClient s m).1 = true ↔ m = 20) := by
  rw [trans_server hm, trans_client hm]
  unfold transBlock
  rw [hp]
  by_cases h : m = 20 <;> simp [h]

/-- C10: a second KEXINIT during a key exchange is refused, on either side. -/
theorem C10_second_kexinit_refused (s : FState) (hp : s.peerKeying = true) :
    (isMessageAllowedServer s 20).1 = false ∧ (isMessageAllowedClient s 20).1 = false := by
  have hm : kexMsg 20 := by unfold kexMsg; omega
  rw [trans_server hm, trans_client hm]
  unfold transBlock
  rw [hp]
  simp

/-- C10: while a message is expected, it is the only key exchange message let through, on either
side, and it is let through once: the expectation is used up. -/
theorem C10_only_expected (s : FState) (m x : Nat) (hp : s.peerKeying = true) (hx : s.expect = some x)
    (h0 : x ≠ 0) (hm : kexMsg m) :
    ((isMessageAllowedServer s m).1 = true ↔ m = x ∧ m ≠ 20) ∧
    ((isMessageAllowedClient s m).1 = true ↔ m = x ∧ m ≠ 20) ∧
    ((isMessageAllowedServer s m).1 = true → (isMessageAllowedServer s m).2 = some 0) ∧
    ((isMessageAllowedClient s m).1 = true → (isMessageAllowedClient s m).2 = some 0) ∧
    ((isMessageAllowedServer s m).1 = false → (isMessageAllowedServer s m).2 = some x) ∧
    ((isMessageAllowedClient s m).1 = false → (isMessageAllowedClient s m).2 = some x) := by
  rw [trans_server hm, trans_client hm]
  unfold transBlock
  rw [hp, hx]
  by_cases h : m = 20
  · simp [h]
  · by_cases hmx : m = x
    · subst hmx; simp [h, h0]
    · simp [h, h0, hmx]

/-- C10: a client without an expectation lets no key exchange message through at all while a key
exchange is in progress. -/
theorem C10_client_unexpected (s : FState) (m : Nat) (hp : s.peerKeying = true)
    (hx : s.expect = none ∨ s.expect = some 0) (hm : kexMsg m) :
    (isMessageAllowedClient s m).1 = false := by
  rw [trans_client hm]
  unfold kexMsg at hm
  have hph : clientPhase s m = false := by
    unfold clientPhase CONNECT_SERVER_USERAUTH_ACCEPT_DONE CONNECT_CLIENT_USERAUTH_REQUEST_SENT
    rw [if_neg (show ¬ m ≥ 80 by omega), if_neg (show ¬ (50 ≤ m ∧ m ≤ 79) by omega)]
    simp; omega
  unfold transBlock
  rw [hp]
  by_cases h : m = 20
  · simp [h]
  · rcases hx with hx | hx <;> simp [h, hx, hph]

/-- C10 for a server, the provable part: without an expectation a first key exchange lets through
numbers 21 to 34 only. What is missing is that it should be 30 (or 34 for group exchange) only;
`C10_server_unexpected_witness` shows the code lets more through. -/
theorem C10_server_unexpected_partial (s : FState) (m : Nat) (hp : s.peerKeying = true)
    (hx : s.expect = none ∨ s.expect = some 0) (hm : kexMsg m) (hk : s.progress < 4) :
    (isMessageAllowedServer s m).1 = true ↔ 21 ≤ m ∧ m ≤ 34 := by
  rw [trans_server hm]
  unfold kexMsg at hm
  have hph : serverPhase s m = true ↔ m ≤ 34 := by
    unfold serverPhase ACCEPT_KEYED ACCEPT_SERVER_USERAUTH_SENT
    by_cases h : m > 34
    · rw [if_pos ⟨hk, h⟩]; simp; omega
    · rw [if_neg (by omega), if_pos (by omega), if_neg (by omega), if_neg (by omega)]; simp; omega
  unfold transBlock
  rw [hp]
  by_cases h : m = 20
  · simp [h]
  · rcases hx with hx | hx <;> simp [h, hx, hph] <;> omega

/-- A server in a key exchange without an expectation lets the server's own messages KEXDH_REPLY
(31) and GEX_REPLY (33) through to their handlers: the full C10 does not hold of the filter. -/
theorem C10_server_unexpected_witness :
    (isMessageAllowedServer ⟨3, true, some 0⟩ 31).1 = true ∧
    (isMessageAllowedServer ⟨3, true, some 0⟩ 33).1 = true := by decide

/-- C09, filter part: a client lets through no message only a client may send: SERVICE_REQUEST,
USERAUTH_REQUEST; and in a key exchange with a known next message `x` nothing but `x`. -/
theorem C09_client_only (s : FState) :
    (isMessageAllowedClient s 5).1 = false ∧ (isMessageAllowedClient s 50).1 = false := by
  simp [isMessageAllowedClient]

/-- C09: connection messages only after the authentication was accepted. -/
theorem C09_connection (s : FState) (m : Nat) (hm : 80 ≤ m) :
    (isMessageAllowedClient s m).1 = true ↔ 10 ≤ s.progress := by
  unfold isMessageAllowedClient
  rw [if_neg (by omega), if_neg (by omega), if_neg (by omega), if_neg (by omega)]
  unfold clientPhase CONNECT_SERVER_USERAUTH_ACCEPT_DONE
  by_cases h : s.progress < 10
  · rw [if_pos h, if_pos hm]; simp; omega
  · rw [if_neg h, if_pos hm]; simp; omega

/-- C09: authentication messages only between the request for the service and the acceptance. -/
theorem C09_userauth (s : FState) (m : Nat) (hm : 50 ≤ m ∧ m ≤ 79)
    (h : (isMessageAllowedClient s m).1 = true) : 7 ≤ s.progress ∧ s.progress < 10 := by
  unfold isMessageAllowedClient at h
  split at h
  · cases h
  · rw [if_neg (by omega), if_neg (by omega), if_neg (by omega)] at h
    unfold clientPhase CONNECT_SERVER_USERAUTH_ACCEPT_DONE CONNECT_CLIENT_USERAUTH_REQUEST_SENT at h
    simp only at h
    split at h
    · rw [if_neg (by omega)] at h
      split at h
      · cases h
      · omega
    · rw [if_neg (by omega)] at h; cases h

/-- C09: SERVICE_ACCEPT exactly when the service was asked for. -/
theorem C09_service_accept (s : FState) :
    (isMessageAllowedClient s 6).1 = true ↔ s.progress = 7 := by
  simp [isMessageAllowedClient, CONNECT_CLIENT_USERAUTH_REQUEST_SENT]

/-- C08, filter part: a server lets connection messages through only after the success reply, and
authentication messages only before it. -/
theorem C08_filter (s : FState) (m : Nat) :
    (80 ≤ m → ((isMessageAllowedServer s m).1 = true ↔ 8 ≤ s.progress)) ∧
    (50 ≤ m ∧ m ≤ 79 → (isMessageAllowedServer s m).1 = true →
      (m = 50 ∨ m = 61) ∧ 4 ≤ s.progress ∧ s.progress < 8) := by
  constructor
  · intro hm
    unfold isMessageAllowedServer
    rw [if_neg (by omega), if_neg (by omega), if_neg (by omega), if_neg (by omega)]
    unfold serverPhase ACCEPT_KEYED ACCEPT_SERVER_USERAUTH_SENT
    by_cases h : s.progress < 8
    · by_cases h4 : s.progress < 4
      · rw [if_pos (by omega)]; simp; omega
      · rw [if_neg (by omega), if_pos h, if_pos hm]; simp; omega
    · rw [if_neg (by omega), if_neg h, if_neg (by omega)]; simp; omega
  · intro hm h
    unfold isMessageAllowedServer at h
    rw [if_neg (by omega), if_neg (by omega), if_neg (by omega), if_neg (by omega)] at h
    unfold serverPhase ACCEPT_KEYED ACCEPT_SERVER_USERAUTH_SENT at h
    simp only at h
    split at h
    · cases h
    · split at h
      · rw [if_neg (by omega)] at h
        split at h
        · cases h
        · omega
      · rw [if_pos (by omega)] at h; cases h

/-- C07, a client: after it has thrown away the message a server sent on a wrong guess, the
expectation is used up and is not set again (src/internal.c:5877-5893), so the real answer to its
own key exchange message is refused. (The guess costs the connection, not only one message.) -/
theorem C07_client_skip_then_refused (progress x : Nat) (hx : kexMsg x) (h20 : x ≠ 20) :
    let s : FState := ⟨progress, true, some x⟩
    (isMessageAllowedClient s x).1 = true ∧
    ∀ y, kexMsg y → (isMessageAllowedClient { s with expect := (isMessageAllowedClient s x).2 } y).1 = false := by
  intro s
  have hx0 : x ≠ 0 := by unfold kexMsg at hx; omega
  have h := C10_only_expected s x x rfl rfl hx0 hx
  have ht := h.2.1.2 ⟨rfl, h20⟩
  refine ⟨ht, fun y hy => ?_⟩
  have he := h.2.2.2.1 ht
  rw [he]
  exact C10_client_unexpected _ y rfl (.inr rfl) hy

/-- The hypotheses of the theorems above are met by a client that sent KEXDH_INIT. -/
example : isMessageAllowedClient ⟨4, true, some 31⟩ 31 = (true, some 0) ∧
    isMessageAllowedClient ⟨4, true, some 31⟩ 33 = (false, some 31) ∧
    isMessageAllowedClient ⟨4, true, some 0⟩ 31 = (false, some 0) ∧
    isMessageAllowedServer ⟨3, true, some 21⟩ 21 = (true, some 0) ∧
    isMessageAllowedServer ⟨3, false, none⟩ 20 = (true, none) ∧
    isMessageAllowedServer ⟨8, false, none⟩ 90 = (true, none) ∧
    isMessageAllowedServer ⟨6, false, none⟩ 50 = (true, none) := by decide

end Props.Filter
