import Verif.Model.ScpMsg
/-!
# SCP: receiving files

Models the receiving side of SCP in /repo/src/wolfscp.c: `DoScpSink` and the functions it calls. A step is one turn of the
loop of `DoScpSink`, or of the loop in `ReceiveScpMessage`. What the network, the transport and the application's callback do
in a turn is its input. Allocation does not fail. A message that is not understood, and every other failure that is not a
request to try again, ends the run (the application gets an error and closes the connection).
-/

namespace Wolf.Scp

/-- `scpState`, wolfssh/internal.h:1961-1993, as far as the receiving side goes through it. `dead`: an error was returned.
`crash`: a read outside a buffer. -/
inductive St where
  | begin | recvMsg | sendConf | recvConf | recvFile | done | dead | crash
  deriving DecidableEq, Repr

/-- `scpMsgType`, wolfssh/internal.h:2002-2007. -/
inductive Kind where
  | file | time | dir | endDir
  deriving DecidableEq, Repr

/-- What the application's callback returns: `WS_SCP_CONTINUE`, `WS_SCP_ABORT`, or something else. -/
inductive Cb where
  | go | abort | other
  deriving DecidableEq, Repr

/-- What comes of an attempt to read from the channel. `take`: what the channel holds, up to the length asked for; `zero`: a
read of no bytes (an empty data message, or a rekey that begins while the data arrives); `spin`: nothing yet, the loop goes
on; `ext`: data on the error stream; `eof`: the peer is done or has closed; `want`: nothing yet, the caller has to come back. -/
inductive Rd where
  | take | zero | spin | ext | eof | want | fail
  deriving DecidableEq, Repr

/-- What comes of an attempt to send a confirmation. -/
inductive Snd where
  | sent | want | fail
  deriving DecidableEq, Repr

/-- The environment of one step. `cb2` is the answer when a step calls back twice; `old` is what the memory behind the
message holds. -/
structure In where
  rd : Rd := .take
  snd : Snd := .sent
  cb : Cb := .go
  cb2 : Cb := .go
  old : Bytes := []

/-- The calls made to the application's receive callback (`WS_CallbackScpRecv`, wolfssh/wolfscp.h:56-75), with the arguments
that vary. -/
inductive Call where
  | request
  | newFile (name : Option Bytes) (mode mtime atime size : Nat)
  | part (name : Option Bytes) (size off : Nat) (data : Bytes)
  | fileDone (name : Option Bytes) (mode mtime atime size : Nat)
  | newDir (name : Option Bytes) (mode mtime atime : Nat)
  | endDir
  deriving DecidableEq, Repr

/-- What can be seen of a step: a callback and its answer, a confirmation sent (zero byte, or an error message), the
peer's confirmation taken as good. -/
inductive Out where
  | call (c : Call) (r : Cb)
  | ack
  | nak
  | conf
  deriving DecidableEq, Repr

/-- The part of `WOLFSSH` that the receiving side uses. `chan`: channel data not yet read; `msg`: what has been read of a
message (`scpRecvMsg`, `scpRecvMsgSz`). -/
structure Sink where
  st : St := .begin
  next : St := .begin
  rename : Bool := false
  name : Option Bytes := none
  mode : Nat := 0
  size : Nat := 0
  mtime : Nat := 0
  atime : Nat := 0
  off : Nat := 0
  kind : Kind := .file
  confirm : Cb := .go
  msg : Bytes := []
  chan : Bytes := []
  deriving DecidableEq, Repr

/-- `DEFAULT_SCP_BUFFER_SZ` (wolfssh/wolfscp.h:51-52, wolfssh/internal.h: `DEFAULT_MAX_PACKET_SZ`). -/
def PART_SZ : Nat := 32768

/-- What a message changes (`ReceiveScpMessage`, src/wolfscp.c:1806-1848). -/
def note (s : Sink) : Msg → Sink
  | .file m n nm => { s with kind := .file, mode := m, size := n, name := nm.or s.name, rename := false }
  | .dir m n nm => { s with kind := .dir, mode := m, size := n, name := nm.or s.name, rename := false }
  | .endDir => { s with kind := .endDir }
  | .times m a => { s with kind := .time, mtime := m, atime := a }

/-- `DoScpSink`, state `SCP_RECEIVE_MESSAGE`, once a message has been received (src/wolfscp.c:253-285). -/
def act (s : Sink) (i : In) : Sink × List Out :=
  match s.kind with
  | .dir => ({ s with st := .sendConf, next := .recvMsg, confirm := i.cb },
      [.call (.newDir s.name s.mode s.mtime s.atime) i.cb])
  | .endDir => ({ s with st := .sendConf, next := .recvMsg, confirm := i.cb }, [.call .endDir i.cb])
  | .time => ({ s with st := .sendConf, next := .recvMsg }, [])
  | .file => ({ s with st := .sendConf, next := .recvFile, confirm := i.cb },
      [.call (.newFile s.name s.mode s.mtime s.atime s.size) i.cb])

/-- `ReceiveScpMessage` (src/wolfscp.c:1699-1853), one turn of its loop, and what `DoScpSink` does next. -/
def recvMessage (s : Sink) (i : In) : Sink × List Out :=
  if s.msg.length ≥ MSG_SZ - 1 then ({ s with st := .dead }, [])
  else match i.rd with
    | .take =>
      if s.chan = [] then (s, [])
      else
        let got := s.chan.take (MSG_SZ - s.msg.length)
        let s := { s with msg := s.msg ++ got, chan := s.chan.drop (MSG_SZ - s.msg.length) }
        if s.msg.getLast? = some (10 : Byte) then
          match parseMsg s.rename s.msg i.old with
          | none => ({ s with st := .crash }, [])
          | some (.error _) => ({ s with st := .dead, msg := [] }, [])
          | some (.ok m) => act (note { s with msg := [] } m) i
        else (s, [])
    | .zero => act s i
    | .spin | .ext | .want => (s, [])
    | .eof => ({ s with st := .done }, [])
    | .fail => ({ s with st := .dead }, [])

/-- `SendScpConfirmation` (src/wolfscp.c:1884-1937) and state `SCP_SEND_CONFIRMATION` (src/wolfscp.c:287-297). -/
def sendConf (s : Sink) (i : In) : Sink × List Out :=
  match i.snd with
  | .want => (s, [])
  | .fail => ({ s with st := .dead }, [])
  | .sent =>
    if s.confirm = .abort then ({ s with st := .dead }, [.nak])
    else ({ s with st := s.next }, [.ack])

/-- `ReceiveScpConfirmation` (src/wolfscp.c:1939-1985) and state `SCP_RECEIVE_CONFIRMATION` (src/wolfscp.c:299-307). -/
def recvConf (s : Sink) (i : In) : Sink × List Out :=
  match i.rd with
  | .take =>
    match s.chan with
    | [] => (s, [])
    | b :: _ =>
      let s := { s with chan := s.chan.drop MSG_SZ }
      if b = 0 then ({ s with st := .recvMsg }, [.conf]) else ({ s with st := .dead }, [])
  | .zero | .ext => ({ s with st := .recvMsg }, [.conf])
  | .spin | .want => (s, [])
  | .eof | .fail => ({ s with st := .dead }, [])

/-- State `SCP_RECEIVE_FILE` once `data` has been read (src/wolfscp.c:317-351). -/
def gotPart (s : Sink) (i : In) (data : Bytes) : Sink × List Out :=
  let o := .call (.part s.name s.size s.off data) i.cb
  let s := { s with off := s.off + data.length, confirm := i.cb }
  if i.cb ≠ .go then ({ s with st := .sendConf, next := .done }, [o])
  else if s.off < s.size then ({ s with next := .recvFile }, [o])
  else ({ s with off := 0, atime := 0, mtime := 0, st := .sendConf, next := .recvConf, confirm := i.cb2 },
    [o, .call (.fileDone s.name s.mode s.mtime s.atime s.size) i.cb2])

/-- `ReceiveScpFile` (src/wolfscp.c:1855-1882) and state `SCP_RECEIVE_FILE` (src/wolfscp.c:309-352). -/
def recvFile (s : Sink) (i : In) : Sink × List Out :=
  let part := min (s.size - s.off) PART_SZ
  if part = 0 then gotPart s i []
  else match i.rd with
    | .take =>
      if s.chan = [] then (s, [])
      else gotPart { s with chan := s.chan.drop part } i (s.chan.take part)
    | .zero => gotPart s i []
    | .spin | .want => (s, [])
    | .ext | .eof | .fail => ({ s with st := .dead }, [])

/-- One turn of the loop of `DoScpSink` (src/wolfscp.c:216-358). -/
def step (s : Sink) (i : In) : Sink × List Out :=
  match s.st with
  | .begin => ({ s with st := .sendConf, next := .recvMsg, confirm := i.cb }, [.call .request i.cb])
  | .recvMsg => recvMessage s i
  | .sendConf => sendConf s i
  | .recvConf => recvConf s i
  | .recvFile => recvFile s i
  | .done | .dead | .crash => (s, [])

/-- What happens: channel data arrives, or the application lets the receiving side take a step. -/
inductive Ev where
  | arrive (bs : Bytes)
  | step (i : In)

/-- One event. -/
def next (s : Sink) : Ev → Sink × List Out
  | .arrive bs => ({ s with chan := s.chan ++ bs }, [])
  | .step i => step s i

/-- A history of events and all that could be seen of it. -/
def run (s : Sink) : List Ev → Sink × List Out
  | [] => (s, [])
  | e :: es =>
    let (s, o) := next s e
    let (s, os) := run s es
    (s, o ++ os)

end Wolf.Scp
