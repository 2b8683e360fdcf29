import Verif.Model.SftpLoop
import Verif.Spec.SftpServer
/-!
# The SFTP server: a stream of requests, histories of calls
-/

namespace Spec.Sftp
open Wolf Wolf.Sftp Spec.Wire

/-- A request packet (draft-ietf-secsh-filexfer-02, section 3): uint32 length, byte type, uint32 id, body. -/
def packet (type id : Nat) (body : Bytes) : Bytes := encString (UInt8.ofNat type :: (encUint32 id ++ body))

/-- The packets the server takes: a body of 1 to 65536 bytes. -/
structure Takes (type id : Nat) (body : Bytes) : Prop where
  type : type < 256
  id : id < 2 ^ 32
  some : 0 < body.length
  max : body.length ≤ 65536

/-- The first packet of a stream: type, id, body; and the rest. -/
def first (stream : Bytes) : Option ((Nat × Nat × Bytes) × Bytes) :=
  (string stream).bind fun p =>
  (byte p.1).bind fun t =>
  (uint32 t.2).bind fun id =>
  if 0 < id.2.length ∧ id.2.length ≤ 65536 then some ((t.1.toNat, id.1, id.2), p.2) else none

/-- The packets at the start of a stream, `n` at most. -/
def packets : Nat → Bytes → List (Nat × Nat × Bytes)
  | 0, _ => []
  | n + 1, stream =>
    match first stream with
    | some (r, rest) => r :: packets n rest
    | none => []

/-- The event of a call. -/
def event (h : Handled) : Event := (⟨h.E, h.type, h.id, h.body⟩, h.out)

/-- The requests, as the client sent them, and the replies. -/
def asked (t : List Event) : List (Nat × Nat × Bytes) := t.map fun e => (e.1.type, e.1.id, e.1.body)
def stream (t : List Event) : Bytes := t.flatMap fun e => packet e.1.type e.1.id e.1.body
def replies (t : List Event) : Bytes := t.flatMap fun e => e.2.reply.getD []

/-- A call like most: a read that succeeds leaves no error code behind (it may if data arrived for another channel
meanwhile), nor does a handler leave a notice or a failing send the code for data that has arrived; no reply gets lost
(C62). -/
structure Calm (c : Visit) : Prop where
  reads : ∀ t ∈ c.head ++ c.rest, ∀ n, t.read.1 = .ok (n + 1) → t.read.2 = none
  handler : notice c.handErr = false
  sends : ∀ e, c.send.res = .error e → c.send.err ≠ some .chanRxd
  kept : c.send.lost = false
  good : Good c.E

/-- The application goes on after this result: success, a notice, a key exchange, or the refusal of one request. -/
def GoesOn (ret err : Ret) : Prop :=
  ret = none ∨ ret = some .rekeying ∨ notice err = true ∨ ∃ e, ret = some e ∧ e ≠ .fatal ∧ e ≠ .memory

/-- A history of calls, from state `s` to `s'`, and the requests handled in it. -/
inductive Served (s : St) : List Event → St → Prop
  | nil : Served s [] s
  | call {t s' s'' c ret ev} : Served s t s' → Calm c → sftpRead c s' = .back ret s'' ev → GoesOn ret s''.err →
      Served s (t ++ (ev.map event).toList) s''

/-- Between requests, nothing sent yet. -/
structure AtStart (s : St) : Prop where
  phase : s.phase = none
  out : s.out = []

/-- A call that meets no obstacle: memory, as many turns as it takes, each of them with data; the channel takes `n` bytes. -/
structure Smooth (c : Visit) (body n : Nat) : Prop where
  memory : c.state = true ∧ c.hdr = true ∧ c.body = true
  turns : 9 ≤ c.head.length ∧ body ≤ c.rest.length
  data : ∀ t ∈ c.head ++ c.rest, t.flush.1 = none ∧ t.peek = true ∧ ∃ k, t.read = (.ok (k + 1), none)
  handler : c.handErr = none
  sends : ∃ k, n ≤ k ∧ c.send = { res := .ok k }

/-! ## The opening exchange -/

/-- INIT (section 4): the client's version, and extensions. -/
def initPacket (version : Nat) (ext : Bytes) : Bytes := encString (1 :: (encUint32 version ++ ext))

/-- VERSION 3. -/
def version3 : Bytes := encString (2 :: encUint32 3)

/-- What the server takes: version 3 or higher, at most 32763 bytes of extensions. -/
structure Takes3 (version : Nat) (ext : Bytes) : Prop where
  min : 3 ≤ version
  max : version < 2 ^ 32
  ext : ext.length ≤ 32763

/-- A call like most: see `Calm`; VERSION is sent as a whole or not at all. -/
structure OpenCalm (c : OpenVisit) : Prop where
  reads : ∀ t ∈ c.head ++ c.rest, ∀ n, t.read.1 = .ok (n + 1) → t.read.2 = none
  sends : ∀ k, c.send.res = .ok k → 9 ≤ k
  kept : c.send.lost = false

/-- Calls after each of which the application is told to call again. -/
inductive Opened (s : OpenSt) : OpenSt → Prop
  | nil : Opened s s
  | call {s' s'' c ret} : Opened s s' → OpenCalm c → sftpAccept c s' = .back ret s'' → ret ≠ .complete → notice s''.err = true →
      Opened s s''

/-- Nothing read or sent yet. -/
structure OpenStart (s : OpenSt) : Prop where
  phase : s.phase = .start []
  out : s.out = []

/-- A call that meets no obstacle. -/
structure OpenSmooth (c : OpenVisit) (ext : Nat) : Prop where
  memory : c.state = true ∧ c.hdr = true ∧ c.ext = true
  turns : 9 ≤ c.head.length ∧ ext ≤ c.rest.length
  data : ∀ t ∈ c.head ++ c.rest, t.flush.1 = none ∧ t.peek = true ∧ ∃ k, t.read = (.ok (k + 1), none)
  sends : ∃ k, 9 ≤ k ∧ c.send = { res := .ok k }

end Spec.Sftp
