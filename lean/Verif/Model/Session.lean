import Verif.Model.UserAuth
import Verif.Model.MsgFilter
/-!
# A server session under `wolfSSH_accept` (src/ssh.c:559-815, src/internal.c:12109-12400,
12811-12955)

The session is a step machine. One step is: entering `wolfSSH_accept`, one pass of its loop body
(one send, or one `DoReceive`), or one `DoReceive` made by any other API function
(`wolfSSH_worker`, `wolfSSH_stream_read`, ...). The transport, the application and the client are
the inputs of a step.

Simplifications: the handlers of the key exchange and of the connection protocol are replaced by
an arbitrary effect on the fields used here (`KexEff`, `ConnEff`), restricted to the values of
`clientState` those handlers can write. Padding and MAC bytes after the payload are given with the
packet. The states after `ACCEPT_CLIENT_SESSION_ESTABLISHED` (SCP, SFTP, agent set-up) are not
modelled.
-/

namespace Wolf.Session
open Wolf Wolf.Wire Wolf.UserAuth Wolf.MsgFilter

/-- A decrypted, authenticated packet: message id, payload, padding. -/
structure Pkt where
  msg : Nat
  payload : Bytes
  pad : Bytes
  deriving DecidableEq, Repr

/-- The server's `WOLFSSH` fields (wolfssh/internal.h `struct WOLFSSH`). -/
structure Srv where
  acceptState : Nat
  selfKeying : Bool
  peerKeying : Bool
  /-- `handshake`, by its `expectMsgId` -/
  expect : Option Nat
  a : Auth
  error : Ret
  /-- `outputBuffer.length > 0` -/
  outPending : Bool
  /-- the packet held while `processReplyState == PROCESS_PACKET` -/
  cur : Option Pkt
  /-- execution is inside `wolfSSH_accept` -/
  inCall : Bool

/-- `wolfSSH_new` for a server (src/internal.c:1600-1690): `authId` starts as public key,
counters at zero. -/
def Srv.init (maxAuth : Nat) (sessionId : Bytes) : Srv where
  acceptState := 0
  selfKeying := false
  peerKeying := false
  expect := none
  a := { clientState := 0, userAuthSeen := false, userName := [], authId := ID_USERAUTH_PUBLICKEY,
         authRequests := 0, authFailures := 0, maxAuthAttempts := maxAuth,
         kbSetupPending := false, promptCount := 0, sessionId := sessionId, log := [] }
  error := none
  outPending := false
  cur := none
  inCall := false

/-- Effect of a key exchange handler (`DoKexInit`, `DoKexDhInit`, `DoKexDhGexRequest`,
`DoNewKeys`, ...): keying flags and expectation become anything, `clientState` stays or becomes
`KEXINIT_DONE` / `KEXDH_INIT_DONE` (src/internal.c:5663, 5933). -/
structure KexEff where
  self : Bool
  peer : Bool
  expect : Option Nat
  client : Option Bool
  ret : Ret

/-- Effect of a connection protocol handler (ids 80 and up): `clientState` stays or becomes
`CHANNEL_OPEN_DONE` / `DONE` (src/internal.c:11086, 11673-11693). -/
structure ConnEff where
  client : Option Bool
  ret : Ret

/-- Inputs of one `DoReceive`. -/
structure RecvEnv where
  /-- result of reading, decrypting and authenticating the next packet (`none`: a packet is
  there); not consulted while a packet is held -/
  io : Ret
  pkt : Pkt
  env : Env
  kex : KexEff
  conn : ConnEff
  /-- result of the handlers of ids 1-19, and of `SendUnimplemented` -/
  gen : Ret
  /-- `HighwaterCheck` started a key exchange with this result (src/internal.c:581-618) -/
  highwater : Option Ret
  /-- `outputBuffer.length > 0` afterwards -/
  out : Bool

/-- `DoServiceRequest` (src/internal.c:8228-8259): `GetString` into a 33-byte buffer keeps the
first 32 bytes, and the name must be `ssh-userauth`. -/
def doServiceRequest (a : Auth) (mem : Bytes) (len : Nat) : Option (Ret × Auth) :=
  match getString 33 mem len 0 with
  | .ub => none
  | .err e _ => some (some e, a)
  | .ok nameZ _ =>
    if nameZ.dropLast = NameList.asc "ssh-userauth" then
      some (none, { a with clientState := CLIENT_USERAUTH_REQUEST_DONE })
    else some (some .invalidState, a.note .sentDisconnect)

/-- The `switch (msg)` of `DoPacket` for a server (src/internal.c:12156-12364). `none` is
undefined behaviour in a modelled handler. -/
def dispatch (s : Srv) (e : RecvEnv) (p : Pkt) : Option (Ret × Srv) :=
  let mem := p.payload ++ p.pad
  let len := p.payload.length
  if p.msg = 5 then
    (doServiceRequest s.a mem len).map (fun ra => (ra.1, { s with a := ra.2 }))
  else if p.msg = 50 then
    match doUserAuthRequest e.env s.a mem len with
    | .ub => none
    | .ret r _ a => some (r, { s with a := a })
  else if p.msg = 61 then
    match doUserAuthInfoResponse e.env s.a mem len 0 with
    | .ub => none
    | .ret r _ a => some (r, { s with a := a })
  else if 20 ≤ p.msg ∧ p.msg ≤ 49 then
    let client := match e.kex.client with
      | none => s.a.clientState
      | some false => CLIENT_KEXINIT_DONE
      | some true => CLIENT_KEXDH_INIT_DONE
    some (e.kex.ret, { s with selfKeying := e.kex.self, peerKeying := e.kex.peer,
                              expect := e.kex.expect, a := { s.a with clientState := client } })
  else if p.msg ≥ 80 then
    let client := match e.conn.client with
      | none => s.a.clientState
      | some false => CLIENT_CHANNEL_OPEN_DONE
      | some true => CLIENT_DONE
    some (e.conn.ret, { s with a := { s.a with clientState := client } })
  else some (e.gen, s)

/-- `DoPacket` (src/internal.c:12109-12400) on a well-framed packet: result, consumed flag,
state. -/
def doPacket (s : Srv) (e : RecvEnv) (p : Pkt) : Option (Ret × Bool × Srv) :=
  match isMessageAllowedServer ⟨s.acceptState, s.peerKeying, s.expect⟩ p.msg with
  | (false, x) => some (some .msgNotAllowed, false, { s with expect := x })
  | (true, x) =>
    let s := { s with expect := x, a := s.a.note (.acted p.msg) }
    match dispatch s e p with
    | none => none
    | some (r, s) =>
      if r = some .authPending then some (r, false, s)
      else
        match e.highwater with
        | none => some (r, true, s)
        | some hr => some (if r = none then hr else r, true, { s with selfKeying := true })

/-- `DoReceive` (src/internal.c:12811-12955). Every result other than `WS_SUCCESS` is negative,
so `wolfSSH_accept` stops on it; `error` receives the code. -/
def doReceive (s : Srv) (e : RecvEnv) : Option (Bool × Srv) :=
  let go (p : Pkt) : Option (Bool × Srv) :=
    match doPacket s e p with
    | none => none
    | some (r, consumed, s) =>
      some (r == none, { s with error := r, cur := if consumed then none else some p,
                                outPending := e.out })
  match s.cur with
  | some p => go p
  | none =>
    match e.io with
    | some err => some (false, { s with error := some err })
    | none => go e.pkt

/-- Inputs of one pass of the accept loop. -/
structure LoopEnv where
  /-- result of the send made in this state (or of `DoProtoId`) -/
  send : Ret
  out : Bool
  recv : RecvEnv

/-- Record a message when its send function queued it: `BundlePacket` succeeded, whatever the
socket said (src/internal.c:16991-17030, 19616-19650). -/
def noteSent (a : Auth) (r : Ret) : Option Ev → Auth
  | some x => if queued r then a.note x else a
  | none => a

/-- The `if ((ssh->error = Send...()) < WS_SUCCESS) return WS_FATAL_ERROR; acceptState = next`
blocks of src/ssh.c:612-706. -/
def sendThen (s : Srv) (l : LoopEnv) (next : Nat) (ev : Option Ev) : Srv :=
  let s := { s with error := l.send, outPending := l.out, a := noteSent s.a l.send ev }
  match l.send with
  | none => { s with acceptState := next }
  | some _ => { s with inCall := false }

/-- The `while (cond) DoReceive` blocks of src/ssh.c:641-737: one `DoReceive` when the condition
holds, else the next state. -/
def recvWhile (s : Srv) (l : LoopEnv) (cond : Bool) (next : Nat) : Option Srv :=
  if cond then
    match doReceive s l.recv with
    | none => none
    | some (true, s) => some s
    | some (false, s) => some { s with inCall := false }
  else some { s with acceptState := next }

/-- One pass of the loop of `wolfSSH_accept` (src/ssh.c:607-760). -/
def loopStep (s : Srv) (l : LoopEnv) : Option Srv :=
  match s.acceptState with
  | 0 => some (sendThen s l 1 none)
  | 1 =>
    if s.a.clientState < CLIENT_VERSION_DONE then
      match l.send with
      | none => some { s with error := none, a := { s.a with clientState := CLIENT_VERSION_DONE } }
      | some e => some { s with error := some e, inCall := false }
    else some { s with acceptState := 2 }
  | 2 => some { sendThen s l 3 none with selfKeying := true }
  | 3 => recvWhile s l (s.selfKeying || s.peerKeying) 4
  | 4 => recvWhile s l (s.a.clientState < CLIENT_USERAUTH_REQUEST_DONE) 5
  | 5 => some (sendThen s l 6 (some .sentServiceAccept))
  | 6 => recvWhile s l (s.a.clientState < CLIENT_USERAUTH_DONE) 7
  | 7 => some (sendThen s l 8 (some .sentUserAuthSuccess))
  | 8 => recvWhile s l (s.a.clientState < CLIENT_CHANNEL_OPEN_DONE) 9
  | 9 => recvWhile s l (s.a.clientState < CLIENT_DONE) 10
  | _ => some { s with inCall := false }

/-- Errors `wolfSSH_accept` clears on entry (src/ssh.c:567). -/
def retryable (r : Ret) : Bool :=
  r == none || r == some .wantRead || r == some .wantWrite || r == some .authPending

/-- The prologue of `wolfSSH_accept` (src/ssh.c:566-605); `flush` is the result of
`wolfSSH_SendPacket`. -/
def acceptEnter (s : Srv) (flush : Ret) : Srv :=
  if retryable s.error = false then s
  else
    let s := { s with error := none }
    if s.outPending ∧ s.acceptState < 10 then
      match flush with
      | some e => { s with error := some e }
      | none =>
        let st := s.acceptState
        { s with outPending := false, cur := none, inCall := true,
                 acceptState := if st ≠ 1 ∧ st ≠ 6 ∧ st ≠ 3 ∧ st ≠ 4 ∧ st ≠ 9 then st + 1 else st }
    else { s with inCall := true }

/-- Inputs of the machine. -/
inductive In where
  | accept (flush : Ret)
  | loop (l : LoopEnv)
  | other (e : RecvEnv)

/-- One step; `none` is undefined behaviour. -/
def step (s : Srv) : In → Option Srv
  | .accept flush => some (acceptEnter s flush)
  | .loop l => loopStep s l
  | .other e => (doReceive s e).map (·.2)

/-- Codes that do not end a session: success, and the codes `DoReceive` does not turn into
`WS_FATAL_ERROR` (src/internal.c:12923-12926) or `wolfSSH_accept` clears. -/
def usable (r : Ret) : Bool :=
  retryable r || r == some .chanRxd || r == some .extData || r == some .channelClosed
    || r == some .rekeying

/-- What `SendProtoId`, `SendKexInit`, `SendServiceAccept`, `SendUserAuthSuccess` return: success,
`WS_WANT_WRITE` with the packet queued, or an error that ends the session
(`wolfSSH_SendPacket`, src/internal.c:4262-4325, and `PreparePacket`/`BundlePacket`). -/
def sendResult (r : Ret) : Prop := r = none ∨ r = some .wantWrite ∨ usable r = false

/-- Which steps the single-threaded program can take: the loop runs inside the call, the API is
entered outside of it. An application that stops calling `DoReceive` users after an error that
ends the session is `polite`. -/
def enabled (polite : Bool) (s : Srv) : In → Prop
  | .accept _ => s.inCall = false
  | .loop l => s.inCall = true ∧ (s.acceptState = 1 ∨ sendResult l.send)
  | .other _ => s.inCall = false ∧ (polite = true → usable s.error = true)

/-- Sessions reachable from `wolfSSH_new`. -/
inductive Reach (polite : Bool) (maxAuth : Nat) (sid : Bytes) : Srv → Prop where
  | init : Reach polite maxAuth sid (Srv.init maxAuth sid)
  | step {s s' : Srv} {i : In} : Reach polite maxAuth sid s → enabled polite s i →
      step s i = some s' → Reach polite maxAuth sid s'

end Wolf.Session
