import Verif.Model.Basic
/-!
# `wolfSSH_accept`: what the server sends of its own accord (src/ssh.c:559-815)

`wolfSSH_accept` from its first call to the end, called again and again by an application whose transport takes bytes
when it likes to. It counts which messages are put into the output buffer by the function itself, and when; the replies
made while receiving only matter as something left in that buffer. What the transport and the client do are arguments
of each call. What receiving changes (`clientState`, `isKeying`, `useAgent`, the session) is arbitrary here; `Session`
has who may change it. Left out: dropping a held packet after the flush (`Receive`), the inside of SCP and SFTP.
-/

namespace Wolf.ServerSetup

/-- What `wolfSSH_accept` puts into the output buffer: its version line, the first KEXINIT, the acceptance of the user
authentication service, the success of the authentication, the request to open an agent channel. -/
inductive Msg where
  | version | kexinit | service | success | agent
  deriving DecidableEq, Repr

/-- `acceptState` (wolfssh/internal.h:1582-1603; 10 is `ACCEPT_CLIENT_SESSION_ESTABLISHED`, 11 stands for
`ACCEPT_INIT_SCP_TRANSFER` and `ACCEPT_INIT_SFTP`), whether the output buffer holds something, what was put into it,
`clientState` (1: `CLIENT_VERSION_DONE`, 2: `CLIENT_USERAUTH_REQUEST_DONE`, 3: `CLIENT_USERAUTH_DONE`, 4:
`CLIENT_CHANNEL_OPEN_DONE`, 5: `CLIENT_DONE`) and the highest it has had, `isKeying`, `useAgent`, whether the session is SCP
or SFTP, the agent contexts that were allocated and never freed. `dead`: a call failed with something else than "want read",
"want write" or "authentication pending". -/
structure St where
  stage : Nat := 0
  pending : Bool := false
  log : List Msg := []
  client : Nat := 0
  best : Nat := 0
  keying : Bool := false
  agent : Bool := false
  xfer : Bool := false
  leaked : Nat := 0
  dead : Bool := false
  deriving DecidableEq, Repr

/-- What becomes of a message: queued and written, queued and not all written (`WS_WANT_WRITE`), or an error. -/
inductive Out where
  | written | blocked | failed
  deriving DecidableEq, Repr

/-- What one `DoReceive` (or `DoProtoId`) brings: nothing, something after which these are the values of `clientState`,
`isKeying`, `useAgent` and of "SCP or SFTP", or an error. `pend`: it left something in the output buffer; `stop`: it
returned "want write" or "authentication pending". -/
inductive Rx where
  | nothing
  | got (client : Nat) (keying agent xfer pend stop : Bool)
  | error
  deriving DecidableEq, Repr

/-- One `DoReceive`: whether the caller goes on, and the state (the conditions at src/ssh.c:620, 645, 656, 679, 702, 713). -/
def receive (s : St) : Rx → Bool × St
  | .nothing => (false, s)
  | .got c k a x pend stop =>
    (!stop, { s with client := c, best := max s.best c, keying := k, agent := a, xfer := x, pending := s.pending || pend })
  | .error => (false, { s with dead := true })

/-- `while (!cond) DoReceive`: goes on when the condition holds, and returns when a receive fails. When `rxs` runs out
there is nothing to read. -/
def wait (cond : St → Bool) : List Rx → St → Bool × St × List Rx
  | rxs, s =>
    if cond s then (true, s, rxs)
    else match rxs with
      | [] => (false, s, [])
      | rx :: rest =>
        let r := receive s rx
        if r.1 then wait cond rest r.2 else (false, r.2, rest)

/-- What surrounds one call of `wolfSSH_accept`. -/
structure Env where
  flush : Out := .written
  out : Nat → Out := fun _ => .written
  rx : List Rx := []

/-- The flush at the beginning (src/ssh.c:576-607): the state goes on to the next one unless it is one that sends several
messages. -/
def flush (s : St) (o : Out) : Bool × St :=
  if s.pending = true ∧ s.stage < 10 then
    match o with
    | .written => (true, { s with
        pending := false,
        stage := if s.stage ≠ 1 ∧ s.stage ≠ 6 ∧ s.stage ≠ 3 ∧ s.stage ≠ 4 ∧ s.stage ≠ 9 then s.stage + 1 else s.stage })
    | .blocked => (false, s)
    | .failed => (false, { s with dead := true })
  else (true, s)

/-- A state `n` that sends (src/ssh.c:612-618, 632-639, 666-675, 690-697); sending KEXINIT begins a key exchange. -/
def sends (n : Nat) (m : Msg) (e : Env) (r : Bool × St × List Rx) : Bool × St × List Rx :=
  if r.1 = true ∧ r.2.1.stage = n then
    let s := { r.2.1 with keying := r.2.1.keying || m == Msg.kexinit }
    match e.out n with
    | .written => (true, { s with log := s.log ++ [m], pending := false, stage := n + 1 }, r.2.2)
    | .blocked => (false, { s with log := s.log ++ [m], pending := true }, r.2.2)
    | .failed => (false, { s with dead := true }, r.2.2)
  else r

/-- A state `n` that waits (src/ssh.c:620-630, 641-651, 653-664, 677-688, 699-710). -/
def waits (n : Nat) (cond : St → Bool) (r : Bool × St × List Rx) : Bool × St × List Rx :=
  if r.1 = true ∧ r.2.1.stage = n then
    let w := wait cond r.2.2 r.2.1
    (w.1, if w.1 then { w.2.1 with stage := n + 1 } else w.2.1, w.2.2)
  else r

/-- `case ACCEPT_SERVER_CHANNEL_ACCEPT_SENT` (src/ssh.c:712-790): the last wait, the turn to SCP or SFTP, and the agent's
channel. When its request cannot be written at once the channel is kept, the new agent context is not, and the state
stays what it is. -/
def last (e : Env) (r : Bool × St × List Rx) : Bool × St :=
  if r.1 = true ∧ r.2.1.stage = 9 then
    let w := wait (fun s => 5 ≤ s.client) r.2.2 r.2.1
    if w.1 then
      let s := w.2.1
      if s.xfer then (true, { s with stage := 11 })
      else if s.agent then
        match e.out 9 with
        | .written => (true, { s with log := s.log ++ [.agent], pending := false, stage := 10 })
        | .blocked => (false, { s with log := s.log ++ [.agent], pending := true, leaked := s.leaked + 1 })
        | .failed => (false, { s with dead := true })
      else (true, { s with stage := 10 })
    else (w.1, w.2.1)
  else (r.1, r.2.1)

/-- `wolfSSH_accept` (src/ssh.c:559-815): whether it succeeds or turns to SCP or SFTP. -/
def accept (e : Env) (s : St) : Bool × St :=
  let f := flush s e.flush
  last e
    (waits 8 (fun s => 4 ≤ s.client)
    (sends 7 .success e
    (waits 6 (fun s => 3 ≤ s.client)
    (sends 5 .service e
    (waits 4 (fun s => 2 ≤ s.client)
    (waits 3 (fun s => !s.keying)
    (sends 2 .kexinit e
    (waits 1 (fun s => 1 ≤ s.client)
    (sends 0 .version e (f.1, f.2, e.rx))))))))))

/-- The calls of an application that stops at the first error which is not "want read", "want write" or "authentication
pending". -/
def run : List Env → St → St
  | [], s => s
  | e :: es, s => if s.dead then s else run es (accept e s).2

end Wolf.ServerSetup
