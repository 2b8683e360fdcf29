import Verif.Model.Channel
/-!
# Global requests and channel requests (src/internal.c:10708-10885, 11605-11907, 19742-19815,
21146-21195)

A request is one received message, read from `idx` up to `len` in `mem`. What the application's
callbacks answer and whether a packet can be queued are arguments. Everything the application or
the peer can see is recorded, in order, as a list of `Ev`. Undefined behaviour is `none`. A failing
allocation is not modelled here.
-/

namespace Wolf.Request
open Wolf Wolf.Wire Wolf.NameList Wolf.Channel

/-- Message numbers (wolfssh/internal.h:1698-1711). -/
def MSGID_REQUEST_SUCCESS : Byte := 81
def MSGID_REQUEST_FAILURE : Byte := 82
def MSGID_CHANNEL_SUCCESS : Byte := 99
def MSGID_CHANNEL_FAILURE : Byte := 100

/-- `WS_FWD_PORT_CHECK` (wolfssh/ssh.h:235). -/
def WS_FWD_PORT_CHECK : Int := 1024

/-- `WOLFSSH_MAX_NAMESZ` (wolfssh/internal.h:544). -/
def MAX_NAMESZ : Nat := 32

/-- What a request makes happen: a call of the application, or a packet put into the output buffer
(its payload). -/
inductive Ev where
  /-- `fwdCb(cleanup ? WOLFSSH_FWD_REMOTE_CLEANUP : WOLFSSH_FWD_REMOTE_SETUP, addr, port)` -/
  | fwd (cleanup : Bool) (addr : Bytes) (port : Nat)
  /-- `globalReqCb(name, wantReply)` -/
  | global (name : Bytes) (want : Byte)
  | shell (chan : Nat)
  /-- the callbacks get the channel, whose `command` they can read (`none`: NULL) -/
  | exec (chan : Nat) (command : Option Bytes)
  | subsys (chan : Nat) (command : Option Bytes)
  | resize (w h wp hp : Nat)
  | packet (payload : Bytes)
  deriving DecidableEq, Repr

/-- `PreparePacket`, filling in the payload, `BundlePacket`, `wolfSSH_SendPacket`. -/
def sendPayload (e : SendEnv) (payload : Bytes) : Ret × List Ev :=
  if e.prep ≠ none then (e.prep, []) else (e.sent, [.packet payload])

/-- `SendRequestSuccess` (src/internal.c:19742-19774). -/
def sendRequestSuccess (e : SendEnv) (success : Bool) : Ret × List Ev :=
  sendPayload e [if success then MSGID_REQUEST_SUCCESS else MSGID_REQUEST_FAILURE]

/-- `SendGlobalRequestFwdSuccess` (src/internal.c:19777-19815). -/
def sendFwdSuccess (e : SendEnv) (success : Bool) (port : Nat) : Ret × List Ev :=
  sendPayload e (if success then MSGID_REQUEST_SUCCESS :: c32toa port else [MSGID_REQUEST_FAILURE])

/-- What surrounds a global request: `ctx->fwdCb` (its answer to the request, and its answer to the
cleanup that may follow), `ctx->globalReqCb`, the packet. -/
structure GEnv where
  fwdCb : Option (Int × Int)
  globalReqCb : Option Ret
  send : SendEnv

/-- The callback part of `DoGlobalRequestFwd` (src/internal.c:10742-10772): the result, the calls
made and `bindPort` afterwards. -/
def callFwd (E : GEnv) (cancel : Bool) (addr : Bytes) (port : Nat) : Ret × List Ev × Nat :=
  match E.fwdCb with
  | none => (some .unimplemented, [], port)
  | some (r, _) =>
    if cancel = false ∧ r ≥ WS_FWD_PORT_CHECK then
      if port = 0 ∧ r ≤ 65535 then (none, [.fwd cancel addr port], r.toNat)
      else (none, [.fwd cancel addr port], port)
    else if r ≠ 0 then (some .resourceE, [.fwd cancel addr port], port)
    else (none, [.fwd cancel addr port], port)

/-- The port-0 compliance check (src/internal.c:10774-10795). `asked` is `requestedPort`. -/
def checkPort (E : GEnv) (cancel : Bool) (addr : Bytes) (asked : Nat) (r : Ret × List Ev × Nat) :
    Ret × List Ev × Nat :=
  if r.1 = none ∧ cancel = false then
    if asked = 0 ∧ (r.2.2 : Int) < WS_FWD_PORT_CHECK then
      if E.fwdCb ≠ none then (some .resourceE, r.2.1 ++ [.fwd true addr r.2.2], r.2.2) else r
    else r
  else r

/-- The answer (src/internal.c:10797-10813). -/
def answerFwd (E : GEnv) (want : Byte) (cancel : Bool) (ret : Ret) (port : Nat) : Ret × List Ev :=
  if want ≠ 0 then
    if ret = none then
      if cancel then sendRequestSuccess E.send true else sendFwdSuccess E.send true port
    else sendRequestSuccess E.send false
  else if ret = some .unimplemented ∨ ret = some .resourceE then (none, [])
  else (ret, [])

/-- `DoGlobalRequestFwd` (src/internal.c:10709-10817). -/
def doGlobalRequestFwd (E : GEnv) (mem : Bytes) (len idx : Nat) (want : Byte) (cancel : Bool) :
    Option (Ret × List Ev) :=
  match getStringAlloc mem len idx with
  | .ub => none
  | .err e _ => some (answerFwd E want cancel (some e) 0)
  | .ok addr b =>
    match getUint32 mem len b with
    | .ub => none
    | .err e _ => some (answerFwd E want cancel (some e) 0)
    | .ok port _ =>
      let r := checkPort E cancel addr port (callFwd E cancel addr port)
      let a := answerFwd E want cancel r.1 r.2.2
      some (a.1, r.2.1 ++ a.2)

/-- `ID_GLOBREQ_TCPIP_FWD`, `ID_GLOBREQ_TCPIP_FWD_CANCEL` (wolfssh/internal.h:526-527; the numbers
only have to differ from each other and from `ID_UNKNOWN`). -/
def ID_GLOBREQ_TCPIP_FWD : Nat := 230
def ID_GLOBREQ_TCPIP_FWD_CANCEL : Nat := 231

/-- The rows of `NameIdMap` for global requests (src/internal.c:3562-3563); every other row leads to
the `default:` case here, like `ID_UNKNOWN`. -/
def globTable : Table :=
  [⟨ID_GLOBREQ_TCPIP_FWD, .other, asc "tcpip-forward"⟩,
   ⟨ID_GLOBREQ_TCPIP_FWD_CANCEL, .other, asc "cancel-tcpip-forward"⟩]

/-- The `default:` case (src/internal.c:10861-10875). -/
def otherGlobal (E : GEnv) (name : Bytes) (want : Byte) : Ret × List Ev :=
  match E.globalReqCb with
  | some r =>
    if want ≠ 0 then
      let a := sendRequestSuccess E.send (r = none)
      (a.1, .global name want :: a.2)
    else (r, [.global name want])
  | none => if want ≠ 0 then sendRequestSuccess E.send false else (none, [])

/-- `DoGlobalRequest` (src/internal.c:10820-10885). -/
def doGlobalRequest (E : GEnv) (mem : Bytes) (len idx : Nat) : Option (Ret × List Ev) :=
  if len = 0 then some (some .badArgument, [])
  else
    match getString 80 mem len idx with
    | .ub => none
    | .err e _ => some (some e, [])
    | .ok name b =>
      match getBoolean mem len b with
      | .ub => none
      | .err e _ => some (some e, [])
      | .ok want b =>
        let id := nameToId globTable name.dropLast
        if id = ID_GLOBREQ_TCPIP_FWD then doGlobalRequestFwd E mem len b want false
        else if id = ID_GLOBREQ_TCPIP_FWD_CANCEL then doGlobalRequestFwd E mem len b want true
        else some (otherGlobal E name.dropLast want)

/-! ## Channel requests -/

/-- `WS_SessionType` (wolfssh/ssh.h:202-208). -/
inductive Session where
  | unknown | shell | exec | subsystem
  deriving DecidableEq, Repr

/-- The fields of `WOLFSSH_CHANNEL` that channel requests set. -/
structure Info where
  session : Session := .unknown
  command : Option Bytes := none
  pty : Bool := false
  deriving DecidableEq, Repr

/-- The fields of `WOLFSSH` that channel requests read and set; `info` is by this side's channel
number, `clientDone` is `clientState == CLIENT_DONE`. -/
structure Sess where
  conn : Conn
  info : Nat → Info
  width : Nat := 0
  height : Nat := 0
  widthPx : Nat := 0
  heightPx : Nat := 0
  modes : Option Bytes := none
  exitStatus : Nat := 0
  clientDone : Bool := false
  useAgent : Bool := false

/-- What surrounds a channel request: build options, the callbacks and their answers (`none`: not
set; a non-zero answer rejects), the packet. -/
structure CEnv where
  term : Bool := true
  shell : Bool := true
  agent : Bool := true
  shellCb : Option Int := none
  execCb : Option Int := none
  subsysCb : Option Int := none
  termResizeCb : Option Ret := none
  agentCb : Bool := false
  send : SendEnv := {}

/-- `WSTRNCMP(a, b, n) == 0`, stopping at a terminator; `none` reads outside an argument. -/
def strncmpEq : Bytes → Bytes → Nat → Option Bool
  | _, _, 0 => some true
  | a :: as, b :: bs, n + 1 =>
    if a ≠ b then some false
    else if a = 0 then some true
    else strncmpEq as bs n
  | _, _, _ => none

/-- `ChannelRequestIs` (src/internal.c:11607-11612); `type` is the buffer with its terminator,
`typeSz` its length without. -/
def requestIs (type : Bytes) (typeSz : Nat) (name : Bytes) : Bool :=
  typeSz = name.length ∧ strncmpEq type (name ++ [0]) name.length = some true

/-- Result of the body of a channel request: return code, `rej`, `wantReply` afterwards, the calls
made, the session. -/
structure Out where
  ret : Ret
  rej : Bool
  want : Byte
  evs : List Ev
  s : Sess

/-- Store a field of the channel. -/
def setInfo (s : Sess) (id : Nat) (i : Info) : Sess :=
  { s with info := fun n => if n = id then i else s.info n }

/-- `env` (src/internal.c:11650-11666): read and ignored. -/
def reqEnv (s : Sess) (mem : Bytes) (len idx : Nat) (want : Byte) : Option Out :=
  match getString MAX_NAMESZ mem len idx with
  | .ub => none
  | .err e _ => some ⟨some e, false, want, [], s⟩
  | .ok _ b =>
    match getString 32 mem len b with
    | .ub => none
    | .err e _ => some ⟨some e, false, want, [], s⟩
    | .ok _ _ => some ⟨none, false, want, [], s⟩

/-- A callback that may refuse: `rej` and the call. -/
def ask (cb : Option Int) (ev : Ev) : Bool × List Ev :=
  match cb with
  | none => (false, [])
  | some r => (r ≠ 0, [ev])

/-- `shell` (src/internal.c:11667-11674). -/
def reqShell (E : CEnv) (s : Sess) (id : Nat) (want : Byte) : Out :=
  let a := ask E.shellCb (.shell id)
  ⟨none, a.1, want, a.2,
   { setInfo s id { s.info id with session := .shell } with clientDone := true }⟩

/-- Reading `channel->command` (src/internal.c:11676-11677, 11687-11688): the code and the command
afterwards, unchanged if the string cannot be read. -/
def readCommand (old : Option Bytes) (mem : Bytes) (len idx : Nat) : Option (Ret × Option Bytes) :=
  match getStringAlloc mem len idx with
  | .ub => none
  | .err e _ => some (some e, old)
  | .ok c _ => some (none, some c)

/-- `exec` (src/internal.c:11675-11685). -/
def reqExec (E : CEnv) (s : Sess) (id : Nat) (mem : Bytes) (len idx : Nat) (want : Byte) : Option Out :=
  match readCommand (s.info id).command mem len idx with
  | none => none
  | some (ret, cmd) =>
    let a := ask E.execCb (.exec id cmd)
    some ⟨ret, a.1, want, a.2,
      { setInfo s id { s.info id with session := .exec, command := cmd } with clientDone := true }⟩

/-- `subsystem` (src/internal.c:11686-11696). -/
def reqSubsys (E : CEnv) (s : Sess) (id : Nat) (mem : Bytes) (len idx : Nat) (want : Byte) : Option Out :=
  match readCommand (s.info id).command mem len idx with
  | none => none
  | some (ret, cmd) =>
    let a := ask E.subsysCb (.subsys id cmd)
    some ⟨ret, a.1, want, a.2,
      { setInfo s id { s.info id with session := .subsystem, command := cmd } with clientDone := true }⟩

/-- Telling the application the size (src/internal.c:11722-11729, 11752-11758). -/
def resized (E : CEnv) (s : Sess) (want : Byte) : Out :=
  match E.termResizeCb with
  | none => ⟨none, false, want, [], s⟩
  | some r => ⟨if r ≠ none then some .fatal else none, false, want,
      [.resize s.width s.height s.widthPx s.heightPx], s⟩

/-- `pty-req` after the terminal name (src/internal.c:11704-11715): the sizes go into the session as
they are read. -/
def readSizes (s : Sess) (mem : Bytes) (len idx : Nat) : Option (Except Err Nat × Sess) :=
  match getUint32 mem len idx with
  | .ub => none
  | .err e _ => some (.error e, s)
  | .ok w b =>
    match getUint32 mem len b with
    | .ub => none
    | .err e _ => some (.error e, { s with width := w })
    | .ok h b =>
      match getUint32 mem len b with
      | .ub => none
      | .err e _ => some (.error e, { s with width := w, height := h })
      | .ok wp b =>
        match getUint32 mem len b with
        | .ub => none
        | .err e _ => some (.error e, { s with width := w, height := h, widthPx := wp })
        | .ok hp b => some (.ok b, { s with width := w, height := h, widthPx := wp, heightPx := hp })

/-- `pty-req` (src/internal.c:11698-11731). -/
def reqPty (E : CEnv) (s : Sess) (id : Nat) (mem : Bytes) (len idx : Nat) (want : Byte) : Option Out :=
  let s1 := setInfo s id { s.info id with pty := true }
  match getString 32 mem len idx with
  | .ub => none
  | .err e _ => some ⟨some e, false, want, [], s1⟩
  | .ok _ b =>
    match readSizes s1 mem len b with
    | none => none
    | some (.error e, s2) => some ⟨some e, false, want, [], s2⟩
    | some (.ok b, s2) =>
      match getStringAlloc mem len b with
      | .ub => none
      | .err e _ => some ⟨some e, false, want, [], s2⟩
      | .ok m _ => some (resized E { s2 with modes := some m } want)

/-- `window-change` (src/internal.c:11734-11760): the sizes are stored only once all are read. -/
def reqWindow (E : CEnv) (s : Sess) (mem : Bytes) (len idx : Nat) : Option Out :=
  match readSizes s mem len idx with
  | none => none
  | some (.error e, _) => some ⟨some e, false, 0, [], s⟩
  | some (.ok _, s1) => some (resized E s1 0)

/-- `exit-status` (src/internal.c:11763-11767). -/
def reqExitStatus (s : Sess) (mem : Bytes) (len idx : Nat) : Option Out :=
  match getUint32 mem len idx with
  | .ub => none
  | .err e _ => some ⟨some e, false, 0, [], s⟩
  | .ok v _ => some ⟨none, false, 0, [], { s with exitStatus := v }⟩

/-- `exit-signal` (src/internal.c:11768-11797): read and logged. -/
def parseSignal (mem : Bytes) (len idx : Nat) : Res Unit :=
  Wolf.Kex.Res.bind (getString MAX_NAMESZ mem len idx) fun _ b =>
  Wolf.Kex.Res.bind (getBoolean mem len b) fun _ b =>
  Wolf.Kex.Res.bind (getString MAX_NAMESZ mem len b) fun _ b =>
  Wolf.Kex.Res.bind (getString MAX_NAMESZ mem len b) fun _ b => .ok () b

def reqExitSignal (s : Sess) (mem : Bytes) (len idx : Nat) : Option Out :=
  match parseSignal mem len idx with
  | .ub => none
  | .err e _ => some ⟨some e, false, 0, [], s⟩
  | .ok _ _ => some ⟨none, false, 0, [], s⟩

/-- `auth-agent-req@openssh.com` (src/internal.c:11800-11806). -/
def reqAgent (E : CEnv) (s : Sess) (want : Byte) : Out :=
  ⟨none, false, want, [], if E.agentCb then { s with useAgent := true } else s⟩

/-- The chain of request types (src/internal.c:11650-11812). -/
def reqBody (E : CEnv) (s : Sess) (id : Nat) (type : Bytes) (typeSz : Nat) (mem : Bytes) (len idx : Nat)
    (want : Byte) : Option Out :=
  if requestIs type typeSz (asc "env") then reqEnv s mem len idx want
  else if requestIs type typeSz (asc "shell") then some (reqShell E s id want)
  else if requestIs type typeSz (asc "exec") then reqExec E s id mem len idx want
  else if requestIs type typeSz (asc "subsystem") then reqSubsys E s id mem len idx want
  else if E.term ∧ requestIs type typeSz (asc "pty-req") then reqPty E s id mem len idx want
  else if E.term ∧ E.shell ∧ requestIs type typeSz (asc "window-change") then reqWindow E s mem len idx
  else if (E.term ∨ E.shell) ∧ requestIs type typeSz (asc "exit-status") then reqExitStatus s mem len idx
  else if (E.term ∨ E.shell) ∧ requestIs type typeSz (asc "exit-signal") then reqExitSignal s mem len idx
  else if E.agent ∧ requestIs type typeSz (asc "auth-agent-req@openssh.com") then some (reqAgent E s want)
  else some ⟨none, true, want, [], s⟩

/-- `SendChannelSuccess` (src/internal.c:21146-21195). -/
def sendChannelSuccess (c : Conn) (e : SendEnv) (id : Nat) (success : Bool) : Ret × List Ev :=
  match findSelf c id with
  | none => (some .invalidChanId, [])
  | some (_, ch) =>
    sendPayload e ((if success then MSGID_CHANNEL_SUCCESS else MSGID_CHANNEL_FAILURE) :: c32toa ch.peerId)

/-- The end of `DoChannelRequest` (src/internal.c:11820-11832). -/
def reply (E : CEnv) (id : Nat) (o : Out) : Ret × List Ev × Sess :=
  if o.want ≠ 0 then
    let a := sendChannelSuccess o.s.conn E.send id (o.ret = none ∧ o.rej = false)
    (if a.1 ≠ none then a.1 else o.ret, o.evs ++ a.2, o.s)
  else (o.ret, o.evs, o.s)

/-- `DoChannelRequest` (src/internal.c:11615-11836). -/
def doChannelRequest (E : CEnv) (s : Sess) (mem : Bytes) (len idx : Nat) : Option (Ret × List Ev × Sess) :=
  match getUint32 mem len idx with
  | .ub => none
  | .err e _ => some (some e, [], s)
  | .ok id b =>
    match getString 32 mem len b with
    | .ub => none
    | .err e _ => some (some e, [], s)
    | .ok type b =>
      match getBoolean mem len b with
      | .ub => none
      | .err e _ => some (some e, [], s)
      | .ok want b =>
        match findSelf s.conn id with
        | none => some (reply E id ⟨some .invalidChanId, false, want, [], s⟩)
        | some _ =>
          (reqBody E s id type (type.length - 1) mem len b want).map (reply E id)

end Wolf.Request
