import Verif.Model.Request
/-!
# The requests a side sends (src/ssh.c:1395-1435, 1575-1720, 3604-3679, src/internal.c:16796-16896,
20154-20206, 20559-20675, 20871-21143, 8034-8063)

What `Request` receives is built here: the request for a shell, a command or a subsystem that
`wolfSSH_connect` ends with, the pseudo-terminal and agent requests before it, a new terminal size,
an exit status, and the global requests. Whether a packet can be queued and sent is an argument.
-/

namespace Wolf.ClientReq
open Wolf Wolf.Wire Wolf.NameList Wolf.Channel Wolf.Request

/-- `MSGID_GLOBAL_REQUEST`, `MSGID_CHANNEL_REQUEST` (wolfssh/internal.h:1697, 1709). -/
def MSGID_GLOBAL_REQUEST : Byte := 80
def MSGID_CHANNEL_REQUEST : Byte := 98

/-- `WOLFSSH_MAX_CHN_NAMESZ` (wolfssh/internal.h:547). -/
def MAX_CHN_NAMESZ : Nat := 4096

/-- What the session is to be: `ctx->side`, `connectChannelId` (a shell from `SshInit` on,
src/internal.c:1646), `channelName` with its size (`none`: NULL), `sendTerminalRequest`. -/
structure Want where
  server : Bool := false
  type : Session := .shell
  name : Option Bytes := none
  pty : Bool := false
  deriving DecidableEq, Repr

/-- `wolfSSH_SetChannelType` (src/ssh.c:1651-1721). `type` is a `WS_SessionType`
(wolfssh/ssh.h:202-208), `name` the `nameSz` bytes at `name` (`none`: NULL), `mem` says whether
`WMALLOC` succeeds. -/
def setChannelType (w : Want) (type : Nat) (name : Option Bytes) (mem : Bool) : Ret × Want :=
  let named (t : Session) : Ret × Want :=
    match name with
    | some n =>
      if 0 < n.length ∧ n.length < MAX_CHN_NAMESZ then
        if w.name ≠ some n then
          if mem then (none, { w with name := some n, type := t }) else (some .memory, w)
        else (none, { w with type := t })
      else (none, { w with type := t })
    | none => (none, { w with type := t })
  if type = 1 then (none, { w with name := none, type := .shell })
  else if type = 2 then if w.server then (some .badArgument, w) else named .exec
  else if type = 3 then named .subsystem
  else if type = 4 then (none, { w with pty := true, name := none, type := .shell })
  else (some .badArgument, w)

/-- The canned names (src/internal.c:20559-20567); `none` is the `default:` of the switch. -/
def typeName : Session → Option Bytes
  | .shell => some (asc "shell")
  | .exec => some (asc "exec")
  | .subsystem => some (asc "subsystem")
  | .unknown => none

/-- The start of every channel request: the message number, the channel, the type, `want_reply`. -/
def header (ch : Chan) (type : Bytes) (want : Byte) : Bytes :=
  MSGID_CHANNEL_REQUEST :: (c32toa ch.peerId ++ (c32toa type.length ++ (type ++ [want])))

/-- `SendChannelRequest` (src/internal.c:20571-20675), with `name`, `nameSz` as `wolfSSH_connect`
passes them (src/ssh.c:1075-1076). -/
def sendChannelRequest (c : Conn) (w : Want) (e : SendEnv) : Ret × List Ev :=
  match findPeer c c.defaultPeer with
  | none => (some .invalidChanId, [])
  | some (_, ch) =>
    match typeName w.type with
    | none => (some .badArgument, [])
    | some t =>
      let name := w.name.getD []
      sendPayload e (header ch t 1 ++ (if 0 < name.length then c32toa name.length ++ name else []))

/-- `SendChannelTerminalResize` (src/internal.c:20871-20929), `wolfSSH_ChangeTerminalSize`
(src/ssh.c:1578-1596). -/
def sendTerminalResize (c : Conn) (w h wp hp : Nat) (e : SendEnv) : Ret × List Ev :=
  match findPeer c c.defaultPeer with
  | none => (some .invalidChanId, [])
  | some (_, ch) =>
    sendPayload e (header ch (asc "window-change") 0 ++ (c32toa w ++ (c32toa h ++ (c32toa wp ++ c32toa hp))))

/-- `GetTerminalInfo` (src/internal.c:20937-20969): columns, rows, width and height in pixels, from
`ioctl(TIOCGWINSZ)` (`none`: it failed). -/
def terminalSize (ioctl : Option (Nat × Nat × Nat × Nat)) : Nat × Nat × Nat × Nat :=
  match ioctl with
  | some (col, row, x, y) => if col ≠ 0 ∧ row ≠ 0 then (col, row, x, y) else (80, 24, 0, 0)
  | none => (80, 24, 0, 0)

/-- `SendChannelTerminalRequest` (src/internal.c:20974-21079). `env` is `getenv("TERM")`, `modes`
what `CreateMode` wrote (`none`: it failed). -/
def sendTerminalRequest (c : Conn) (ioctl : Option (Nat × Nat × Nat × Nat)) (env : Option Bytes) (modes : Option Bytes)
    (e : SendEnv) : Ret × List Ev :=
  match modes with
  | none => (some .fatal, [])
  | some m =>
    match findPeer c c.defaultPeer with
    | none => (some .invalidChanId, [])
    | some (_, ch) =>
      let term := env.getD (asc "xterm")
      let z := terminalSize ioctl
      sendPayload e (header ch (asc "pty-req") 1 ++ (c32toa term.length ++ (term ++
        (c32toa z.1 ++ (c32toa z.2.1 ++ (c32toa z.2.2.1 ++ (c32toa z.2.2.2 ++
        (if 0 < m.length then c32toa m.length ++ m else []))))))))

/-- `SendChannelAgentRequest` (src/internal.c:21086-21141). -/
def sendAgentRequest (c : Conn) (e : SendEnv) : Ret × List Ev :=
  match findPeer c c.defaultPeer with
  | none => (some .invalidChanId, [])
  | some (_, ch) => sendPayload e (header ch (asc "auth-agent-req@openssh.com") 0)

/-- An `int` as a `word32`. -/
def toWord (i : Int) : Nat := (i % 4294967296).toNat

/-- A `word32` as an `int`, as `wolfSSH_GetExitStatus` returns it (src/ssh.c:1612-1620). -/
def toInt (n : Nat) : Int := if n < 2147483648 then n else (n : Int) - 4294967296

/-- `SendChannelExit` (src/internal.c:20154-20206), for the channel `peer` of the other side. -/
def sendChannelExit (c : Conn) (peer : Nat) (status : Int) (e : SendEnv) : Ret × List Ev :=
  match findPeer c peer with
  | none => (some .invalidChanId, [])
  | some (_, ch) => sendPayload e (header ch (asc "exit-status") 0 ++ c32toa (toWord status))

/-! ## Global requests -/

/-- `SendGlobalRequest` (src/internal.c:16796-16836) behind `wolfSSH_global_request`
(src/ssh.c:1423-1431); `data` NULL is `none`. -/
def globalRequest (data : Option Bytes) (reply : Int) (e : SendEnv) : Ret × List Ev :=
  match data with
  | none => (some .badArgument, [])
  | some d =>
    if reply ≠ 0 ∧ reply ≠ 1 then (some .badArgument, [])
    else sendPayload e (MSGID_GLOBAL_REQUEST :: (c32toa d.length ++ ((if 0 < d.length then d else []) ++
      [UInt8.ofNat reply.toNat])))

/-- `SendGlobalRequestFwd` (src/internal.c:16843-16894). -/
def sendGlobalRequestFwd (addr : Bytes) (port : Nat) (cancel : Bool) (want : Int) (e : SendEnv) : Ret × List Ev :=
  let name := if cancel then asc "cancel-tcpip-forward" else asc "tcpip-forward"
  sendPayload e (MSGID_GLOBAL_REQUEST :: (c32toa name.length ++ (name ++ ((if want ≠ 0 then (1 : Byte) else 0) ::
    (c32toa addr.length ++ (addr ++ c32toa port))))))

/-- `wolfSSH_FwdRemoteSetup` (src/ssh.c:3612-3643), `wolfSSH_FwdRemoteCancel` (src/ssh.c:3649-3679);
`addr` NULL is `none`. -/
def fwdRemote (c : Conn) (cancel : Bool) (addr : Option Bytes) (port : Nat) (want : Int) (e : SendEnv) : Ret × List Ev :=
  match addr with
  | none => (some .badArgument, [])
  | some a =>
    if port > 65535 ∨ (cancel ∧ port = 0) then (some .badArgument, [])
    else if want ≠ 0 ∧ want ≠ 1 then (some .badArgument, [])
    else if c.server then (some .badArgument, [])
    else if c.keying then (some .rekeying, [])
    else sendGlobalRequestFwd a port cancel want e

/-- `DoRequestSuccess`, `DoRequestFailure` (src/internal.c:8034-8063): what the application's callback
gets, if it is set: the rest of the message. `none` reads outside. -/
def doRequestReply (set : Bool) (answer : Ret) (mem : Bytes) (len idx : Nat) : Option (Ret × Option Bytes × Nat) :=
  if set then
    if idx + len ≤ mem.length then some (answer, some ((mem.drop idx).take len), idx + len) else none
  else some (none, none, idx + len)

end Wolf.ClientReq
