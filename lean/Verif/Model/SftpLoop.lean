import Verif.Model.Sftp
/-!
# The SFTP server: the request loop (`wolfSSH_SFTP_read`) and the opening exchange (`wolfSSH_SFTP_accept`)

Reading from and writing to the channel are inputs: a `Turn` says what `wolfSSH_worker`, `wolfSSH_stream_peek` and
`wolfSSH_stream_read` return in one turn of the reading loop, a `Sending` what the sending of a reply comes to. The bytes read
are the bytes the peer sends, in order (that is C17 and C25). `err` is `ssh->error`.
-/

namespace Wolf.Sftp
open Wolf Wolf.Wire Wolf.NameList

/-- A result: `none` is `WS_SUCCESS`. -/
abbrev Ret := Option Err

/-- One turn of the loop of `wolfSSH_SFTP_buffer_read` (src/wolfsftp.c:736-794): `wolfSSH_SendPacket` (if output is
pending) and `ssh->error` behind it; whether `wolfSSH_stream_peek` finds something; `wolfSSH_worker`, `wolfSSH_stream_read`
and the second `wolfSSH_worker`, each with `ssh->error` behind it. -/
structure Turn where
  flush : Ret × Ret := (none, none)
  peek : Bool
  work : Ret × Ret := (none, none)
  read : Except Err Nat × Ret
  work2 : Ret × Ret := (none, none)

/-- What the peer sends from here on, and `ssh->error`. -/
structure Io where
  inp : Bytes
  err : Ret
  deriving DecidableEq, Repr

/-- How `wolfSSH_SFTP_buffer_read` comes back; with the bytes it has got so far. -/
inductive Got where
  | waiting
  | fail (e : Err) (io : Io) (got : Bytes)
  | done (io : Io) (got : Bytes)
  deriving DecidableEq, Repr

/-- `wolfSSH_stream_read` for the rest of a buffer of `sz` bytes, after `wolfSSH_worker` or the peek
(src/wolfsftp.c:758-769). -/
def turnRead (sz : Nat) (t : Turn) (io : Io) (got : Bytes) : Except Err Nat × Ret :=
  let w := if t.peek then (some Err.chanRxd, io.err) else t.work
  match w.1 with
  | some .chanRxd =>
    if sz ≤ got.length then (.error .badArgument, w.2)
    else
      match t.read.1 with
      | .ok k => (.ok (cmin k (cmin (sz - got.length) io.inp.length)), t.read.2)
      | .error e => (.error e, t.read.2)
  | some e => (.error e, w.2)
  | none => (.ok 0, w.2)

/-- `wolfSSH_SFTP_buffer_read` (src/wolfsftp.c:713-797), the buffer being there; `waiting`: it has not come back yet. -/
def bufferRead (sz : Nat) : List Turn → Io → Bytes → Got
  | [], _, _ => .waiting
  | t :: ts, io, got =>
    match t.flush.1 with
    | some .wantWrite => .fail .wantWrite { io with err := some .wantWrite } got
    | some _ => .fail .fatal { io with err := t.flush.2 } got
    | none =>
      match turnRead sz t io got with
      | (.error _, err) =>
        if err = some .rekeying then
          if t.peek ∧ t.work2.1 ≠ none ∧ t.work2.1 ≠ some .chanRxd ∧ t.work2.2 ≠ some .rekeying then
            .fail .fatal { io with err := t.work2.2 } got
          else
            let io := { io with err := if t.peek then t.work2.2 else err }
            if got.length < sz then bufferRead sz ts io got else .done io got
        else .fail .fatal { io with err := err } got
      | (.ok n, err) =>
        let io' := { inp := io.inp.drop n, err := err }
        let got' := got ++ io.inp.take n
        if got'.length < sz then bufferRead sz ts io' got' else .done io' got'

/-- `NoticeError` (src/wolfsftp.c:443-450). -/
def notice (err : Ret) : Bool :=
  err = some .wantRead ∨ err = some .wantWrite ∨ err = some .chanRxd ∨ err = some .windowFull ∨ err = some .rekeying

/-- `WS_SFTP_RECV_STATE` (src/wolfsftp.c:193-201): reading a header, reading a body, sending a reply. -/
inductive Phase where
  | head (got : Bytes)
  | body (type id sz : Nat) (got : Bytes)
  | send (reply : Bytes) (idx : Nat)
  deriving DecidableEq, Repr

/-- The server between two calls; `out` is what was handed to the channel. -/
structure St where
  err : Ret
  phase : Option Phase
  sess : Sess
  inp : Bytes
  out : Bytes
  deriving DecidableEq, Repr

/-- `wolfSSH_SFTP_buffer_send` (src/wolfsftp.c:549-612): a count of bytes or an error, `ssh->error` behind it, whether the
count is a lie (C62), whether output is pending then. -/
structure Sending where
  res : Except Err Nat
  err : Ret := none
  lost : Bool := false
  pending : Bool := false

/-- What one call of `wolfSSH_SFTP_read` meets: allocations of the state, of the header and of the body; the turns of the
two loops; the environment of the handler and an error it leaves in `ssh->error`; the sending. -/
structure Visit where
  state : Bool := true
  hdr : Bool := true
  body : Bool := true
  head : List Turn
  rest : List Turn
  E : Env
  handErr : Ret := none
  send : Sending

/-- A request and what the handler made of it. -/
structure Handled where
  E : Env
  type : Nat
  id : Nat
  body : Bytes
  out : Out

/-- How a call comes back: not yet, with undefined behaviour, or with a code. -/
inductive Back where
  | waiting
  | ub
  | back (ret : Ret) (s : St) (ev : Option Handled)

/-- `STATE_RECV_SEND` (src/wolfsftp.c:1821-1849) with something to send, and `wolfSSH_SFTP_buffer_send_finish`
(628-656). -/
def recvSend (c : Visit) (s : St) (p : Bytes) (idx : Nat) (ev : Option Handled) : Back :=
  let err := c.send.err
  match c.send.res with
  | .error e =>
    if e = .rekeying ∨ err = some .rekeying then .back (some .rekeying) { s with err := err, phase := some (.send p idx) } ev
    else if err ≠ some .wantRead ∧ err ≠ some .wantWrite ∧ err ≠ some .windowFull then
      .back (some .fatal) { s with err := err, phase := none } ev
    else .back (some .fatal) { s with err := err, phase := some (.send p idx) } ev
  | .ok k =>
    let n := cmin k (p.length - idx)
    let out := if c.send.lost then s.out else s.out ++ (p.drop idx).take n
    if idx + n < p.length ∨ c.send.pending then
      .back (some .fatal) { s with err := some .wantWrite, out := out, phase := some (.send p (idx + n)) } ev
    else .back none { s with err := err, out := out, phase := none } ev

/-- `STATE_RECV_DO` (src/wolfsftp.c:1661-1819). (Kept after a failure, the buffer is what the handler left of it; that is
not modelled.) -/
def recvBody (c : Visit) (s : St) (type id sz : Nat) (got : Bytes) : Back :=
  match bufferRead sz c.rest ⟨s.inp, s.err⟩ got with
  | .waiting => .waiting
  | .fail e io got' =>
    if notice io.err then .back (some .fatal) { s with err := io.err, inp := io.inp, phase := some (.body type id sz got') } none
    else .back (some e) { s with err := io.err, inp := io.inp, phase := none } none
  | .done io got' =>
    match handle c.E s.sess type id got' with
    | none => .ub
    | some o =>
      let err := if c.handErr = none then io.err else c.handErr
      let ev := some ⟨c.E, type, id, got', o⟩
      let s := { s with err := err, inp := io.inp, sess := o.st }
      match o.reply with
      | some p => recvSend c s p 0 ev
      | none =>
        match o.ret with
        | some e =>
          if notice err ∧ ¬ (e = .fatal ∧ (type < 3 ∨ 18 < type)) then
            .back (some e) { s with phase := some (.body type id sz got') } ev
          else .back (some e) { s with phase := none } ev
        | none => .back none { s with phase := none } ev

/-- The three fields of a header (src/wolfsftp.c:1051-1053). -/
def fields : Bytes → Option (Nat × Nat × Nat)
  | a :: b :: c :: d :: t :: e :: f :: g :: h :: _ => some (ato32 a b c d, t.toNat, ato32 e f g h)
  | _ => none

/-- `STATE_RECV_READ` (src/wolfsftp.c:1627-1659), `SFTP_GetHeader` (1030-1060), `SFTP_CheckRecvSz` (431-437). -/
def recvHead (c : Visit) (s : St) (got : Bytes) : Back :=
  let fault (e : Ret) : Ret := if e = none then some .bufferE else e
  if got = [] ∧ c.hdr = false then .back (some .fatal) { s with err := fault s.err, phase := some (.head []) } none
  else
    match bufferRead HEADER c.head ⟨s.inp, s.err⟩ got with
    | .waiting => .waiting
    | .fail _ io got' =>
      .back (some .fatal) { s with err := fault io.err, inp := io.inp, phase := some (.head got') } none
    | .done io got' =>
      match fields got' with
      | none => .ub
      | some (len, type, id) =>
        let sz := sub32 (sub32 len 4) 1
        let s := { s with err := io.err, inp := io.inp, phase := some (.head []) }
        if sz = 0 ∨ sz > MAX_PACKET then .back (some .fatal) { s with err := fault io.err } none
        else if c.body = false then .back (some .memory) s none
        else recvBody c s type id sz []

/-- `wolfSSH_SFTP_read` (src/wolfsftp.c:1600-1856). -/
def sftpRead (c : Visit) (s : St) : Back :=
  let s : St := { s with err := if s.err = some .wantRead ∨ s.err = some .wantWrite then none else s.err }
  match s.phase with
  | none => if c.state then recvHead c s [] else .back (some .fatal) { s with err := some .memory } none
  | some (.head got) => recvHead c s got
  | some (.body type id sz got) => recvBody c s type id sz got
  | some (.send p idx) => recvSend c s p idx none

/-! ## The opening exchange -/

/-- `ssh->sftpState` (SFTP_BEGIN, SFTP_EXT, SFTP_RECV, SFTP_DONE) with `WS_SFTP_RECV_INIT_STATE` (src/wolfsftp.c:203-207). -/
inductive Opening where
  | start (got : Bytes)
  | ext (sz : Nat) (got : Bytes)
  | recv
  | done
  deriving DecidableEq, Repr

structure OpenSt where
  err : Ret
  phase : Opening
  reqId : Nat
  inp : Bytes
  out : Bytes
  deriving DecidableEq, Repr

/-- What one call of `wolfSSH_SFTP_accept` meets: the three allocations, the turns of the two loops, the sending. -/
structure OpenVisit where
  state : Bool := true
  hdr : Bool := true
  ext : Bool := true
  head : List Turn
  rest : List Turn
  send : Sending

/-- Results: `WS_SFTP_COMPLETE`, an error, or the positive count of a partial send. -/
inductive OpenRet where
  | complete
  | code (e : Err)
  | count (n : Nat)
  deriving DecidableEq, Repr

inductive OpenBack where
  | waiting
  | ub
  | back (ret : OpenRet) (s : OpenSt)
  deriving DecidableEq, Repr

/-- The VERSION packet (src/wolfsftp.c:1345-1349). -/
def versionBuf : Bytes := c32toa 5 ++ [2] ++ c32toa 3

/-- `SFTP_ServerSendInit` (src/wolfsftp.c:1341-1354) and the state SFTP_RECV of `wolfSSH_SFTP_accept` (1400-1410). A send
that reports 0 bytes would count as success. -/
def openSend (c : OpenVisit) (s : OpenSt) : OpenBack :=
  match c.send.res with
  | .error e => .back (.code e) { s with err := c.send.err, phase := .recv }
  | .ok k =>
    let n := cmin k versionBuf.length
    let out := if c.send.lost then s.out else s.out ++ versionBuf.take n
    if n ≠ versionBuf.length ∧ n ≠ 0 then .back (.count n) { s with err := c.send.err, out := out, phase := .recv }
    else .back .complete { s with err := c.send.err, out := out, phase := .done }

/-- The state SFTP_EXT of `SFTP_ServerRecvInit` (src/wolfsftp.c:1314-1333): `sz` bytes of extensions are skipped. If this
fails for good, `wolfSSH_SFTP_ClearState` forgets their number (1394-1396). -/
def openExt (c : OpenVisit) (s : OpenSt) (sz : Nat) (got : Bytes) : OpenBack :=
  let go (s : OpenSt) : OpenBack := openSend c { s with reqId := add32 s.reqId 1 }
  if sz = 0 then go s
  else if got = [] ∧ c.ext = false then
    .back (.code .fatal) { s with phase := if notice s.err then .ext sz got else .ext 0 [] }
  else
    match bufferRead sz c.rest ⟨s.inp, s.err⟩ got with
    | .waiting => .waiting
    | .fail _ io got' =>
      .back (.code .fatal) { s with err := io.err, inp := io.inp, phase := if notice io.err then .ext sz got' else .ext 0 [] }
    | .done io _ => go { s with err := io.err, inp := io.inp }

/-- The state SFTP_BEGIN of `SFTP_ServerRecvInit` (src/wolfsftp.c:1270-1312), `SFTP_GetSz` (1188-1208), WOLFSSH_MAX_SFTP_RECV being 32768. -/
def openStart (c : OpenVisit) (s : OpenSt) (got : Bytes) : OpenBack :=
  if got = [] ∧ c.state = false then .back (.code .fatal) { s with err := some .memory, phase := .start [] }
  else if got = [] ∧ c.hdr = false then .back (.code .fatal) { s with phase := .start [] }
  else
    match bufferRead HEADER c.head ⟨s.inp, s.err⟩ got with
    | .waiting => .waiting
    | .fail _ io got' =>
      .back (.code .fatal) { s with err := io.err, inp := io.inp, phase := .start (if notice io.err then got' else []) }
    | .done io got' =>
      let s := { s with err := io.err, inp := io.inp, phase := .start [] }
      match fields got' with
      | none => .ub
      | some (len, type, version) =>
        if len < 5 ∨ len > 32768 then .back (.code .bufferE) s
        else if type ≠ 1 then .back (.code .bufferE) s
        else if version < 3 then .back (.code .versionE) s
        else openExt c s (sub32 (sub32 len 1) 4) []

/-- `wolfSSH_SFTP_accept` (src/wolfsftp.c:1361-1417), the SSH session being up. -/
def sftpAccept (c : OpenVisit) (s : OpenSt) : OpenBack :=
  let s : OpenSt := { s with err := if s.err = some .wantRead ∨ s.err = some .wantWrite then none else s.err }
  match s.phase with
  | .start got => openStart c s got
  | .ext sz got => openExt c s sz got
  | .recv => openSend c s
  | .done => .back (.code .fatal) s

end Wolf.Sftp
