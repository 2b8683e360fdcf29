import Verif.Model.Basic
/-!
# The end of `wolfSSH_connect`: one channel, its requests, the answer (src/ssh.c:824-862, 996-1100,
3389-3464, src/internal.c:11839-11905)

`wolfSSH_connect` from user authentication being over, called again and again by an application whose
transport takes bytes when it likes to. The contents of the messages are those of `ClientReq`; here it
counts which of them are put into the output buffer, and when. What the transport and the server do are
arguments of each call. Opening the channel and the answer to it are those of `Channel`.
-/

namespace Wolf.Setup

/-- What is put into the output buffer: the request to open the channel, the agent request, the
pseudo-terminal request, the request for the shell, command or subsystem. -/
inductive Msg where
  | open | agent | pty | session
  deriving DecidableEq, Repr

/-- `agentEnabled`, `sendTerminalRequest`. -/
structure Cfg where
  agent : Bool
  pty : Bool
  deriving DecidableEq, Repr

/-- `connectState` (wolfssh/internal.h:1617-1623: 10 is `CONNECT_SERVER_USERAUTH_ACCEPT_DONE`, 16
`CONNECT_SERVER_CHANNEL_REQUEST_DONE`), whether the output buffer holds something, what was put into it,
`serverState >= SERVER_CHANNEL_OPEN_DONE`, `serverState == SERVER_DONE`, the answers to channel requests
received so far. `dead`: a call failed with something else than "want read" or "want write". -/
structure St where
  stage : Nat := 10
  pending : Bool := false
  log : List Msg := []
  opened : Bool := false
  done : Bool := false
  answers : List Bool := []
  dead : Bool := false
  deriving DecidableEq, Repr

/-- What becomes of a message: queued and written, queued and not all written (`WS_WANT_WRITE`), or an error. -/
inductive Out where
  | written | blocked | failed
  deriving DecidableEq, Repr

/-- What one `DoReceive` brings: nothing (`WS_WANT_READ`), the confirmation of the channel, an answer to a
channel request, something else, which may be an error. `pend`: it left something in the output buffer;
`stop`: because of that it returned `WS_WANT_WRITE`. -/
inductive Rx where
  | nothing
  | confirm (pend stop : Bool)
  | answer (ok : Bool) (pend stop : Bool)
  | other (pend stop : Bool)
  | error
  deriving DecidableEq, Repr

/-- One `DoReceive` as far as it matters: `DoChannelOpenConf`, `DoChannelSuccess`, which ends the setup,
and `DoChannelFailure`, which is an error (src/internal.c:11839-11905). Whether the caller goes on, and the
state. -/
def receive (s : St) : Rx → Bool × St
  | .nothing => (false, s)
  | .confirm pend stop => (!stop, { s with opened := true, pending := s.pending || pend })
  | .answer true pend stop =>
    (!stop, { s with opened := true, done := true, answers := s.answers ++ [true], pending := s.pending || pend })
  | .answer false _ _ => (false, { s with answers := s.answers ++ [false], dead := true })
  | .other pend stop => (!stop, { s with pending := s.pending || pend })
  | .error => (false, { s with dead := true })

/-- `while (!cond) DoReceive` (src/ssh.c:1029-1035, 1087-1093): goes on when the condition holds, and
returns when a receive fails. When `rxs` runs out there is nothing to read. -/
def wait (cond : St → Bool) : List Rx → St → Bool × St × List Rx
  | rxs, s =>
    if cond s then (true, s, rxs)
    else match rxs with
      | [] => (false, s, [])
      | rx :: rest =>
        let r := receive s rx
        if r.1 then wait cond rest r.2 else (false, r.2, rest)

/-- A state that sends (src/ssh.c:996-1023, 1040-1052, 1054-1071, 1073-1083). -/
def send (s : St) (m : Msg) (o : Out) (next : Nat) : Bool × St :=
  match o with
  | .written => (true, { s with log := s.log ++ [m], pending := false, stage := next })
  | .blocked => (false, { s with log := s.log ++ [m], pending := true })
  | .failed => (false, { s with dead := true })

/-- What surrounds one call of `wolfSSH_connect`. -/
structure Env where
  flush : Out := .written
  out : Nat → Out := fun _ => .written
  rx : List Rx := []

/-- The flush at the beginning (src/ssh.c:830-862). -/
def flush (s : St) (o : Out) : Bool × St :=
  if s.pending ∧ s.stage < 16 then
    match o with
    | .written => (true, { s with pending := false, stage := if s.stage ≠ 11 ∧ s.stage ≠ 15 then s.stage + 1 else s.stage })
    | .blocked => (false, s)
    | .failed => (false, { s with dead := true })
  else (true, s)

/-- `case CONNECT_SERVER_USERAUTH_ACCEPT_DONE` (src/ssh.c:996-1026). -/
def at10 (e : Env) (s : St) : Bool × St :=
  if s.stage = 10 then send s .open (e.out 10) 11 else (true, s)

/-- `case CONNECT_CLIENT_CHANNEL_OPEN_SESSION_SENT` (src/ssh.c:1028-1039). -/
def at11 (e : Env) (s : St) : Bool × St × List Rx :=
  if s.stage = 11 then
    let r := wait (·.opened) e.rx s
    (r.1, if r.1 then { r.2.1 with stage := 12 } else r.2.1, r.2.2)
  else (true, s, e.rx)

/-- `case CONNECT_SERVER_CHANNEL_OPEN_SESSION_DONE` (src/ssh.c:1041-1054). -/
def at12 (c : Cfg) (e : Env) (s : St) : Bool × St :=
  if s.stage = 12 then if c.agent then send s .agent (e.out 12) 13 else (true, { s with stage := 13 }) else (true, s)

/-- `case CONNECT_CLIENT_CHANNEL_AGENT_REQUEST_SENT` (src/ssh.c:1056-1070). -/
def at13 (c : Cfg) (e : Env) (s : St) : Bool × St :=
  if s.stage = 13 then if c.pty then send s .pty (e.out 13) 14 else (true, { s with stage := 14 }) else (true, s)

/-- `case CONNECT_CLIENT_CHANNEL_TERMINAL_REQUEST_SENT` (src/ssh.c:1072-1082). -/
def at14 (e : Env) (s : St) : Bool × St :=
  if s.stage = 14 then send s .session (e.out 14) 15 else (true, s)

/-- `case CONNECT_CLIENT_CHANNEL_REQUEST_SENT` (src/ssh.c:1084-1096). -/
def at15 (rx : List Rx) (s : St) : Bool × St :=
  if s.stage = 15 then
    let r := wait (·.done) rx s
    (r.1, if r.1 then { r.2.1 with stage := 16 } else r.2.1)
  else (true, s)

/-- Go on after success. -/
def andThen (r : Bool × St) (f : St → Bool × St) : Bool × St := if r.1 then f r.2 else r

/-- `wolfSSH_connect` from `CONNECT_SERVER_USERAUTH_ACCEPT_DONE` on (src/ssh.c:824-1100): whether it
returns `WS_SUCCESS`. -/
def connect (c : Cfg) (e : Env) (s : St) : Bool × St :=
  andThen (flush s e.flush) fun s =>
  andThen (at10 e s) fun s =>
  let r := at11 e s
  andThen (r.1, r.2.1) fun s =>
  andThen (at12 c e s) fun s =>
  andThen (at13 c e s) fun s =>
  andThen (at14 e s) fun s => at15 r.2.2 s

/-- The flush of `wolfSSH_worker` (src/ssh.c:3414-3420), which leaves `connectState` as it is. -/
def workerFlush (s : St) : St := { s with pending := false }

/-- The calls of an application that stops at the first error which is not "want read" or "want write". -/
def run (c : Cfg) : List Env → St → St
  | [], s => s
  | e :: es, s => if s.dead then s else run c es (connect c e s).2

end Wolf.Setup
