import Verif.Model.Scp
/-!
# SCP: sending files

Models the sending side of SCP in /repo/src/wolfscp.c: `DoScpSource` and the functions it calls. A step is one turn of its
loop. What the network, the transport and the application's callback do in a turn is its input. Allocation does not fail.
Every failure that is not a request to try again ends the run.
-/

namespace Wolf.Scp

/-- `scpState`, wolfssh/internal.h:1961-1993, as far as the sending side goes through it. `dead`: an error was returned.
`crash`: the callback said that it has put more into the buffer than fits. -/
inductive SrcSt where
  | begin | init | sendConf | confReceipt | recvConfReceipt | recvConf | transfer | sendTimes | enterDir | exitDir
  | exitDirFinal | sendHeader | sendFile | done | dead | crash
  deriving DecidableEq, Repr

/-- What the send callback is asked for (`WS_ScpFileStates`, wolfssh/wolfscp.h:56-75). -/
inductive Req where
  | newRequest | single | recursive | cont
  deriving DecidableEq, Repr

/-- What the send callback returns: a `WS_SCP_*` code, a number of bytes (here the bytes themselves), or another error. -/
inductive Ans where
  | enterDir | exitDir | exitDirFinal | complete | abort | eof | data (d : Bytes) | fail
  deriving DecidableEq, Repr

/-- What the send callback fills in besides: name, times, permissions and size. -/
structure Meta where
  name : Bytes := []
  mtime : Nat := 0
  atime : Nat := 0
  mode : Nat := 0
  size : Nat := 0
  deriving DecidableEq, Repr

/-- What comes of an attempt to send with `ScpStreamSend` (src/wolfscp.c:96-143): so many bytes went out, the caller has to
come back, data on the error stream, or a failure. -/
inductive SrcSnd where
  | sent (n : Nat) | want | ext | fail
  deriving DecidableEq, Repr

/-- The environment of one step. -/
structure SrcIn where
  rd : Rd := .take
  snd : SrcSnd := .sent 65536
  ans : Ans := .data []
  info : Meta := {}

/-- What can be seen of a step: the callback, what it was asked for, from which offset, what it answered; bytes written to
the channel; an error message written to the channel; a confirmation taken as good, and the bytes read for it. -/
inductive SrcOut where
  | call (r : Req) (off : Nat) (a : Ans) (m : Meta)
  | wrote (b : Bytes)
  | nak
  | conf (got : Bytes)
  deriving DecidableEq, Repr

/-- The part of `WOLFSSH` that the sending side uses. `buf`: the first `scpBufferedSz` bytes of `scpFileBuffer`; `chan`:
channel data not yet read; `req`: `scpRequestType`. -/
structure Source where
  st : SrcSt := .begin
  next : SrcSt := .begin
  req : Req := .single
  recurse : Bool := false
  times : Bool := false
  info : Meta := {}
  off : Nat := 0
  buf : Bytes := []
  hdr : Bool := false
  stuck : Bool := false
  confirm : Cb := .go
  chan : Bytes := []
  deriving DecidableEq, Repr

/-- Sending a control message (`SendScpTimestamp`, `SendScpFileHeader`, `SendScpEnterDirectory`, `SendScpExitDirectory`,
src/wolfscp.c:411-560): all of it, or the caller comes back, or it is over. `s'` is the state when all went out. -/
def sendMsg (s s' : Source) (t : Bytes) (i : SrcIn) : Source × List SrcOut :=
  match i.snd with
  | .sent n => if n ≥ t.length then (s', [.wrote t]) else ({ s with st := .dead }, [.wrote (t.take n)])
  | .want => (s, [])
  | .ext | .fail => ({ s with st := .dead }, [])

/-- `SendScpConfirmation` (src/wolfscp.c:1886-1937) on the sending side. -/
def srcConfirm (s s' : Source) (i : SrcIn) : Source × List SrcOut :=
  match i.snd with
  | .sent n =>
    if s.confirm = .abort then ({ s with st := .dead }, [.nak])
    else if n ≥ 1 then (s', [.wrote [0]]) else ({ s with st := .dead }, [])
  | .want => (s, [])
  | .ext | .fail => ({ s with st := .dead }, [])

/-- `ReceiveScpConfirmation` (src/wolfscp.c:1939-1985) on the sending side. -/
def srcHear (s s' : Source) (i : SrcIn) : Source × List SrcOut :=
  match i.rd with
  | .take =>
    match s.chan with
    | [] => (s, [])
    | b :: bs =>
      if b = 0 then ({ s' with chan := s.chan.drop MSG_SZ }, [.conf ((b :: bs).take MSG_SZ)])
      else ({ s with st := .dead, chan := s.chan.drop MSG_SZ }, [])
  | .zero | .ext => (s', [.conf []])
  | .spin | .want => (s, [])
  | .eof | .fail => ({ s with st := .dead }, [])

/-- State `SCP_TRANSFER` (src/wolfscp.c:646-718): the callback is asked, and its answer decides. -/
def transfer (s : Source) (i : SrcIn) : Source × List SrcOut :=
  let o := [.call s.req s.off i.ans i.info]
  let s := { s with info := i.info }
  match i.ans with
  | .enterDir => ({ s with st := .enterDir, confirm := .other }, o)
  | .exitDir => ({ s with st := .exitDir, confirm := .other }, o)
  | .exitDirFinal => ({ s with st := .exitDirFinal, confirm := .other }, o)
  | .complete => ({ s with st := .done, confirm := .other }, o)
  | .abort => ({ s with st := .sendConf, next := .done, confirm := .abort }, o)
  | .data d =>
    if d.length > PART_SZ - s.buf.length then ({ s with st := .crash }, o)
    else
      let s := { s with buf := s.buf ++ d, confirm := .go }
      if s.hdr = false then (if s.times then ({ s with st := .sendTimes }, o) else ({ s with st := .sendHeader }, o))
      else ({ s with st := .sendFile }, o)
  | .eof | .fail => ({ s with st := .dead, confirm := .other }, o)

/-- The end of state `SCP_SEND_FILE` (src/wolfscp.c:822-865): what is next. -/
def afterSend (s : Source) : Source :=
  if s.buf ≠ [] then s
  else if s.off < s.info.size then
    (if s.stuck then { s with st := .dead } else { s with stuck := true, st := .transfer, req := .cont })
  else if s.recurse then
    { s with st := .confReceipt, off := 0, buf := [], hdr := false, stuck := false, next := .transfer, req := .recursive,
             info := { s.info with atime := 0, mtime := 0 } }
  else { s with st := .confReceipt, next := .done }

/-- State `SCP_SEND_FILE` (src/wolfscp.c:771-866). The offset is a 32-bit number. -/
def sendFile (s : Source) (i : SrcIn) : Source × List SrcOut :=
  if s.buf = [] then (afterSend s, [])
  else match i.snd with
    | .sent n =>
      let b := s.buf.take n
      (afterSend { s with off := add32 s.off b.length, buf := s.buf.drop n, stuck := if b = [] then s.stuck else false }, [.wrote b])
    | .want | .ext => (s, [])
    | .fail => ({ s with st := .dead }, [])

/-- One turn of the loop of `DoScpSource` (src/wolfscp.c:562-875). -/
def srcStep (s : Source) (i : SrcIn) : Source × List SrcOut :=
  match s.st with
  | .begin =>
    let o := [.call .newRequest 0 i.ans {}]
    if i.ans = .abort then ({ s with st := .recvConfReceipt, next := .done, confirm := .abort }, o)
    else if i.ans = .eof then ({ s with st := .recvConfReceipt, next := .done, confirm := .other }, o)
    else ({ s with st := .init, confirm := .other }, o)
  | .init => ({ s with off := 0, buf := [], hdr := false, stuck := false, st := .recvConf, next := .transfer }, [])
  | .sendConf => srcConfirm s { s with st := s.next } i
  | .confReceipt => srcConfirm s { s with st := .recvConf } i
  | .recvConfReceipt => srcHear s { s with st := .sendConf } i
  | .recvConf => srcHear s { s with st := s.next } i
  | .transfer => transfer s i
  | .sendTimes => sendMsg s { s with st := .recvConf, next := .sendHeader } (timesHeader s.info.mtime s.info.atime) i
  | .enterDir => sendMsg s { s with st := .recvConf, next := .transfer } (dirHeader s.info.mode s.info.name) i
  | .exitDir => sendMsg s { s with st := .recvConf, next := .transfer } endHeader i
  | .exitDirFinal => sendMsg s { s with st := .recvConf, next := .done } endHeader i
  | .sendHeader =>
    sendMsg s { s with st := .recvConf, next := .sendFile, hdr := true } (fileHeader s.info.mode s.info.size s.info.name) i
  | .sendFile => sendFile s i
  | .done | .dead | .crash => (s, [])

/-- What happens: channel data arrives, or the application lets the sending side take a step. -/
inductive SrcEv where
  | arrive (bs : Bytes)
  | step (i : SrcIn)

/-- One event. -/
def srcNext (s : Source) : SrcEv → Source × List SrcOut
  | .arrive bs => ({ s with chan := s.chan ++ bs }, [])
  | .step i => srcStep s i

/-- A history of events and all that could be seen of it. -/
def srcRun (s : Source) : List SrcEv → Source × List SrcOut
  | [] => (s, [])
  | e :: es => ((srcRun (srcNext s e).1 es).1, (srcNext s e).2 ++ (srcRun (srcNext s e).1 es).2)

end Wolf.Scp
