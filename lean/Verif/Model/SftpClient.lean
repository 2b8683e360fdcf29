import Verif.Model.SftpLoop
import Verif.Model.Path
/-!
# The SFTP client: fetching (`wolfSSH_SFTP_Get`) and storing (`wolfSSH_SFTP_Put`) a file

Each function of the client keeps its place in a state of its own (`ssh->getState`, `ssh->sendReadState`, …), so that the
application can call again after `WS_WANT_READ` and the like. Here one step is one call of a lower layer: an event says what it
comes to. A function that comes back with its state kept and a notice in `ssh->error` is called again at once.

Simplified: every allocation succeeds; the SFTP opening exchange is over (`ssh->sftpState == SFTP_DONE`); failures are told from
success, not from each other, and the `WS_SFTP_…` codes in `ssh->error` are `fatal`; file names have no zero byte; what a function
leaves behind when it gives up in the middle of a reply (`ssh->lstatState`, `ssh->closeState`) is not carried into the next one.
-/

namespace Wolf.SftpClient
open Wolf Wolf.Wire Wolf.Sftp
open Wolf.Path (addAssign64)

/-- `WS_SFTP_GET_HANDLE_STATE` (src/wolfsftp.c:368-383): reading a header, a status, a handle. -/
inductive Gh where
  | head (got : Bytes)
  | status (sz : Nat) (got : Bytes)
  | handle (sz : Nat) (got : Bytes)
  deriving DecidableEq, Repr

/-- The connection: `ssh->error`, what the server sends from here on, what was handed to the channel, `ssh->reqId`,
`ssh->sftpInt`, and two states that outlive a caller: `ssh->sendState` (a packet and how much of it is sent) and
`ssh->getHandleState`. -/
structure Chan where
  err : Ret
  inp : Bytes
  out : Bytes
  reqId : Nat
  int : Bool := false
  pkt : Option (Bytes × Nat) := none
  gh : Option Gh := none
  deriving DecidableEq, Repr

/-- What lower layers come to, each with `ssh->error` behind it: `wolfSSH_SFTP_buffer_send` (`k + 1` bytes go, or as many as there
are; is output pending then?), `wolfSSH_SFTP_buffer_read` (`k` bytes come, or as many as are wanted), `wolfSSH_stream_read` (with
what the memory it reads into held), `wolfSSH_stream_send` (with `ssh->error` behind `wolfSSH_worker`, if that is called), opening
a local file (is there one that is not a regular file? does `fopen`, does `fseek` work?), `fwrite` or `fread` (a count), and
`wolfSSH_SFTP_Interrupt`. -/
inductive Ev where
  | send (res : Except Err Nat) (err : Ret) (pending : Bool)
  | read (k : Nat) (err : Ret)
  | stream (res : Except Err Nat) (err : Ret) (junk : Bytes)
  | body (res : Except Err Nat) (err : Ret) (after : Ret)
  | local (irregular fopen fseek : Bool)
  | file (n : Nat)
  | interrupt

/-- Is it `wolfSSH_SFTP_Interrupt` (src/wolfsftp.c:9723-9731)? -/
def Ev.interrupts : Ev → Bool
  | .interrupt => true
  | _ => false

/-- How a function comes back: not yet; with its state kept; for good (`none`: failure); with undefined behaviour. -/
inductive Out (σ α : Type) where
  | more (s : σ)
  | again (s : σ)
  | ret (a : Option α)
  | ub

/-- `WS_WANT_READ` or `WS_WANT_WRITE`. -/
def want (err : Ret) : Bool := err = some .wantRead ∨ err = some .wantWrite

/-- `if (ssh->error == WS_WANT_READ || ssh->error == WS_WANT_WRITE) ssh->error = WS_SUCCESS` (src/wolfsftp.c:7700, 8051, 9756,
9998). -/
def recall (c : Chan) : Chan := { c with err := if want c.err then none else c.err }

/-! ## Packets -/

/-- A string. -/
def str (b : Bytes) : Bytes := c32toa b.length ++ b

/-- `SFTP_SetHeader` (src/wolfsftp.c:1073-1083) and what follows it in the same buffer, `len` being the length passed. -/
def header (type : Byte) (id len : Nat) : Bytes := c32toa (add32 len 5) ++ [type] ++ c32toa id

/-- The packet `SendPacketType` builds (src/wolfsftp.c:6689-6710). -/
def typePacket (type : Byte) (id : Nat) (buf : Bytes) : Bytes := header type id (add32 buf.length 4) ++ str buf

/-- The request of `wolfSSH_SFTP_Open` (src/wolfsftp.c:8075-8119) without attributes. -/
def openPacket (id : Nat) (path : Bytes) (reason : Nat) : Bytes :=
  header 3 id (path.length + 8 + 4) ++ str path ++ c32toa reason ++ c32toa 0

/-- The request of `wolfSSH_SFTP_SendReadPacket` (src/wolfsftp.c:8446-8482). -/
def readPacket (id : Nat) (handle : Bytes) (ofst : Nat × Nat) (outSz : Nat) : Bytes :=
  header 5 id (handle.length + 16) ++ str handle ++ c32toa ofst.2 ++ c32toa ofst.1 ++ c32toa outSz

/-- The first part of the request of `wolfSSH_SFTP_SendWritePacket` (src/wolfsftp.c:8220-8255), for `inSz` bytes. -/
def writeHead (id : Nat) (handle : Bytes) (ofst : Nat × Nat) (inSz : Nat) : Bytes :=
  header 6 id (handle.length + 16 + inSz) ++ str handle ++ c32toa ofst.2 ++ c32toa ofst.1 ++ c32toa inSz

/-! ## Sending and receiving -/

/-- `wolfSSH_SFTP_buffer_send` (src/wolfsftp.c:551-619) that sends: the channel and the index behind. -/
def sendSome (k : Nat) (err : Ret) (c : Chan) (buf : Bytes) (idx : Nat) : Chan × Nat :=
  let n := cmin (k + 1) (buf.length - idx)
  ({ c with err := err, out := c.out ++ (buf.drop idx).take n }, idx + n)

/-- `SendPacketType` (src/wolfsftp.c:6661-6737): not back yet, or failed (`false`), or done (`true`). -/
def sendType (res : Except Err Nat) (err : Ret) (type : Byte) (buf : Bytes) (c : Chan) : Chan × Option Bool :=
  let p := c.pkt.getD (typePacket type c.reqId buf, 0)
  match res with
  | .error _ => ({ c with err := err, pkt := some p }, some false)
  | .ok k =>
    let s := sendSome k err c p.1 p.2
    if s.2 < p.1.length then ({ s.1 with pkt := some (p.1, s.2) }, none) else ({ s.1 with pkt := none }, some true)

/-- `wolfSSH_SFTP_buffer_read` (src/wolfsftp.c:716-797) for a buffer of `sz` bytes: is it full, the channel, the bytes. What the
loop of that function does in detail is `Wolf.Sftp.bufferRead`. -/
def bufRead (sz k : Nat) (err : Ret) (c : Chan) (got : Bytes) : Bool × Chan × Bytes :=
  let n := cmin k (cmin (sz - got.length) c.inp.length)
  let got' := got ++ c.inp.take n
  (sz ≤ got'.length, { c with inp := c.inp.drop n, err := err }, got')

/-- What `SFTP_GetHeader` comes to: not all of it there; a length that leaves nothing (`0`) or a negative number; a header. -/
inductive Header where
  | short (got : Bytes)
  | bad (zero : Bool)
  | ok (type id sz : Nat)
  deriving DecidableEq, Repr

/-- `SFTP_GetHeader` (src/wolfsftp.c:1030-1060). -/
def getHeader (k : Nat) (err : Ret) (c : Chan) (got : Bytes) : Chan × Header :=
  let r := bufRead HEADER k err c got
  if r.1 then
    match fields r.2.2 with
    | some (len, type, id) =>
      let sz := sub32 (sub32 len 4) 1
      if sz = 0 then (r.2.1, .bad true) else if 2 ^ 31 ≤ sz then (r.2.1, .bad false) else (r.2.1, .ok type id sz)
    | none => (r.2.1, .short r.2.2)
  else (r.2.1, .short r.2.2)

/-- `wolfSSH_SFTP_DoStatus` (src/wolfsftp.c:6755-6810): the code of a status reply, `WOLFSSH_FTP_FAILURE` if out of range. -/
def doStatus (buf : Bytes) : Res Nat :=
  andThen (getUint32 buf buf.length 0) fun code i =>
  andThen (getStr buf buf.length i) fun _ i =>
  andThen (getStr buf buf.length i) fun _ i =>
  .ok (if code > 8 then FTP_FAILURE else code) i

/-- `atr->per` behind `SFTP_ParseAttributes_buffer` (src/wolfsftp.c:6859-6928), which clears the attributes and fills them in as
far as it gets. -/
def attrPer (buf : Bytes) : Res Nat :=
  match
    (andThen (getUint32 buf buf.length 0) fun flags i =>
     andThen (optPair (flags.testBit 0) buf buf.length i) fun _ i =>
     andThen (optPair (flags.testBit 1) buf buf.length i) fun _ i =>
     optWord (flags.testBit 2) buf buf.length i) with
  | .ok per i => .ok per i
  | .err _ i => .ok 0 i
  | .ub => .ub

/-! ## `wolfSSH_SFTP_STAT` -/

/-- `WS_SFTP_LSTAT_STATE` (src/wolfsftp.c:139-176). -/
inductive Stat where
  | send
  | head (got : Bytes)
  | check (type id sz : Nat)
  | body (type sz : Nat) (got : Bytes)
  deriving DecidableEq, Repr

/-- `STATE_LSTAT_CHECK_REQ_ID` (src/wolfsftp.c:7763-7774): the state is kept. -/
def statCheck (c : Chan) (type id sz : Nat) : Chan × Out Stat Nat :=
  if id ≠ c.reqId then (c, .again (.check type id sz))
  else ({ c with reqId := add32 c.reqId 1 }, .more (.body type sz []))

/-- `STATE_LSTAT_PARSE_REPLY` (src/wolfsftp.c:7775-7823) with the body read: success, even if the attributes do not parse.
(Simplified: if they do not and a notice is pending, the C code reads a body once more.) -/
def statReply (type : Nat) (got : Bytes) : Out Stat Nat :=
  if type = 105 then
    match attrPer got with
    | .ok per _ => .ret (some per)
    | _ => .ub
  else if type = 101 then
    match doStatus got with
    | .ok code _ => if code = FTP_OK then .ret (some 0) else .ret none
    | .err .. => .ret none
    | .ub => .ub
  else .ret none

/-- `SFTP_STAT` for `path` (src/wolfsftp.c:7689-7842); the result is `atr->per` (0 if there are no attributes: they are the
caller's, which clears them). -/
def statStep (path : Bytes) (ev : Ev) (c : Chan) : Stat → Chan × Out Stat Nat
  | .send =>
    match ev with
    | .send res err _ =>
      match sendType res err 17 path c with
      | (c, none) => (c, .more .send)
      | (c, some true) => (c, .more (.head []))
      | (c, some false) => if notice c.err then (c, .again .send) else (c, .ret none)
    | _ => (c, .more .send)
  | .head got =>
    match ev with
    | .read k err =>
      match getHeader k err c got with
      | (c, .short got) => if notice c.err then (c, .again (.head got)) else (c, .ret none)
      | (c, .bad _) => if notice c.err then (c, .again (.head [])) else (c, .ret none)
      | (c, .ok type id sz) => statCheck c type id sz
    | _ => (c, .more (.head got))
  | .check type id sz => statCheck c type id sz
  | .body type sz got =>
    match ev with
    | .read k err =>
      let r := bufRead sz k err c got
      if r.1 then (r.2.1, statReply type r.2.2)
      else if notice r.2.1.err then (r.2.1, .again (.body type sz r.2.2)) else (r.2.1, .ret none)
    | _ => (c, .more (.body type sz got))

/-! ## `wolfSSH_SFTP_Open` -/

/-- The handle of a transfer: `state->handle` and `state->handleSz`. -/
structure Hd where
  mem : Bytes
  cap : Nat
  deriving DecidableEq, Repr

/-- The handle that goes into requests. -/
def Hd.handle (h : Hd) : Bytes := h.mem.take h.cap

/-- Behind `WMEMSET` and `handleSz = WOLFSSH_MAX_HANDLE`. -/
def Hd.fresh : Hd := ⟨List.replicate MAX_HANDLE 0, MAX_HANDLE⟩

/-- How `wolfSSH_SFTP_GetHandle` comes back: as `Out`, with the handle. -/
abbrev GhOut := Hd × Out Gh Unit

/-- `STATE_GET_HANDLE_READ` with the reply read (src/wolfsftp.c:7413-7441): undefined behaviour (`none`) if the copy leaves the reply
or the memory for the handle; else the handle, or an error. -/
def takeHandle (h : Hd) (got : Bytes) : Option (Option Hd) :=
  match got with
  | a :: b :: c :: d :: rest =>
    let n := ato32 a b c d
    if n > MAX_HANDLE ∨ h.cap < n ∨ add32 4 n > got.length then some none
    else if h.mem.length < n ∨ rest.length < n then none
    else some (some ⟨rest.take n ++ h.mem.drop n, n⟩)
  | _ => some none

/-- `wolfSSH_SFTP_GetHandle` (src/wolfsftp.c:7310-7457), one read. -/
def ghStep (k : Nat) (err : Ret) (c : Chan) (h : Hd) : Gh → Chan × GhOut
  | .head got =>
    match getHeader k err c got with
    | (c, .short got) => if notice c.err then (c, h, .again (.head got)) else (c, h, .ret none)
    | (c, .bad _) => if notice c.err then (c, h, .again (.head [])) else (c, h, .ret none)
    | (c, .ok type id sz) =>
      if type = 102 then
        if id ≠ c.reqId then (c, h, .ret none) else ({ c with reqId := add32 c.reqId 1 }, h, .more (.handle sz []))
      else if type = 101 then (c, h, .more (.status sz []))
      else (c, h, .ret none)
  | .status sz got =>
    let r := bufRead sz k err c got
    if r.1 then
      match doStatus r.2.2 with
      | .ok code _ => if code = FTP_OK then (r.2.1, h, .ret (some ())) else (r.2.1, { h with cap := 0 }, .ret none)
      | .err .. => (r.2.1, { h with cap := 0 }, .ret none)
      | .ub => (r.2.1, h, .ub)
    else (r.2.1, h, .again (.status sz r.2.2))
  | .handle sz got =>
    let r := bufRead sz k err c got
    if r.1 then
      match takeHandle h r.2.2 with
      | some (some h) => (r.2.1, h, .ret (some ()))
      | some none => ({ r.2.1 with err := some .bufferE }, h, .ret none)
      | none => (r.2.1, h, .ub)
    else (r.2.1, h, .again (.handle sz r.2.2))

/-- `WS_SFTP_OPEN_STATE` (src/wolfsftp.c:179-189). -/
inductive Open where
  | send (buf : Bytes) (idx : Nat)
  | get
  deriving DecidableEq, Repr

/-- `STATE_OPEN_GETHANDLE` (src/wolfsftp.c:8146-8160): the state is kept only for `WS_WANT_READ` and `WS_WANT_WRITE`. -/
def openGet (r : Chan × GhOut) : Chan × Hd × Out Open Unit :=
  match r with
  | (c, h, .more g) => ({ c with gh := some g }, h, .more .get)
  | (c, h, .again g) => ({ c with gh := some g }, h, if want c.err then .again .get else .ret none)
  | (c, h, .ret (some _)) => ({ c with gh := none }, h, .ret (some ()))
  | (c, h, .ret none) => ({ c with gh := none }, h, if want c.err then .again .get else .ret none)
  | (c, h, .ub) => (c, h, .ub)

/-- `wolfSSH_SFTP_Open` (src/wolfsftp.c:8035-8176), `wolfSSH_SFTP_buffer_send_finish` (634-661). -/
def openStep (ev : Ev) (c : Chan) (h : Hd) : Open → Chan × Hd × Out Open Unit
  | .send buf idx =>
    match ev with
    | .send (.error _) err _ =>
      if want err then ({ c with err := err }, h, .again (.send buf idx)) else ({ c with err := err }, h, .ret none)
    | .send (.ok k) err pending =>
      let s := sendSome k err c buf idx
      if s.2 < buf.length ∨ pending then ({ s.1 with err := some .wantWrite }, h, .again (.send buf s.2)) else (s.1, h, .more .get)
    | _ => (c, h, .more (.send buf idx))
  | .get =>
    match ev with
    | .read k err => openGet (ghStep k err c h (c.gh.getD (.head [])))
    | _ => (c, h, .more .get)

/-! ## `wolfSSH_SFTP_SendReadPacket` -/

/-- `WS_SFTP_SEND_READ_STATE` (src/wolfsftp.c:313-330): sending, the header, the length, the data (how much is left, what is in
the buffer), a status. -/
inductive Rd where
  | send (buf : Bytes) (idx : Nat)
  | head (got : Bytes)
  | flat
  | rest (left : Nat) (got : Bytes)
  | status (sz : Nat) (got : Bytes)
  deriving DecidableEq, Repr

/-- `STATE_SEND_READ_CHECK_REQ_ID` (src/wolfsftp.c:8530-8552). -/
def rdCheck (c : Chan) (type id sz : Nat) : Chan × Out Rd Bytes :=
  if id ≠ c.reqId then (c, .ret none)
  else
    let c := { c with reqId := add32 c.reqId 1 }
    if type = 103 then (c, .more .flat) else if type = 101 then (c, .more (.status sz [])) else (c, .ret none)

/-- `STATE_SEND_READ_FTP_DATA` (src/wolfsftp.c:8554-8575): four bytes of `szFlat`, of which `wolfSSH_stream_read` has written the
first. -/
def rdFlat (outSz : Nat) (bytes : Bytes) : Out Rd Bytes :=
  match bytes with
  | a :: b :: c :: d :: _ => if ato32 a b c d > outSz then .ret none else .more (.rest (ato32 a b c d) [])
  | _ => .ub

/-- `wolfSSH_SFTP_SendReadPacket` (src/wolfsftp.c:8417-8659) into a buffer of `outSz` bytes; the result is what is in it. A header
that leaves no body comes back as 0 bytes. -/
def rdStep (outSz : Nat) (ev : Ev) (c : Chan) : Rd → Chan × Out Rd Bytes
  | .send buf idx =>
    match ev with
    | .send (.error _) err _ => if notice err then ({ c with err := err }, .again (.send buf idx)) else ({ c with err := err }, .ret none)
    | .send (.ok k) err pending =>
      let s := sendSome k err c buf idx
      if s.2 < buf.length ∨ pending then ({ s.1 with err := some .wantWrite }, .again (.send buf s.2)) else (s.1, .more (.head []))
    | _ => (c, .more (.send buf idx))
  | .head got =>
    match ev with
    | .read k err =>
      match getHeader k err c got with
      | (c, .short got) => if notice c.err then (c, .again (.head got)) else (c, .ret none)
      | (c, .bad zero) => if notice c.err then (c, .again (.head [])) else (c, .ret (if zero then some [] else none))
      | (c, .ok type id sz) => rdCheck c type id sz
    | _ => (c, .more (.head got))
  | .flat =>
    match ev with
    | .stream (.error _) err _ => if notice err then ({ c with err := err }, .again .flat) else ({ c with err := err }, .ret none)
    | .stream (.ok k) err junk =>
      let n := cmin k (cmin 4 c.inp.length)
      ({ c with inp := c.inp.drop n, err := err }, rdFlat outSz (c.inp.take n ++ (junk ++ [0, 0, 0, 0]).drop n))
    | _ => (c, .more .flat)
  | .rest left got =>
    match ev with
    | .stream (.error _) err _ => if notice err then ({ c with err := err }, .again (.rest left got)) else ({ c with err := err }, .ret none)
    | .stream (.ok k) err _ =>
      if left = 0 then if notice c.err then (c, .again (.rest left got)) else (c, .ret none)
      else
        let n := cmin k (cmin left c.inp.length)
        let got' := got ++ c.inp.take n
        if outSz < got'.length then (c, .ub)
        else ({ c with inp := c.inp.drop n, err := err }, if left - n ≠ 0 then .more (.rest (left - n) got') else .ret (some got'))
    | _ => (c, .more (.rest left got))
  | .status sz got =>
    match ev with
    | .read k err =>
      let r := bufRead sz k err c got
      if r.1 then
        match doStatus r.2.2 with
        | .ok code _ => (r.2.1, if code = FTP_OK ∨ code = FTP_EOF then .ret (some []) else .ret none)
        | .err .. => (r.2.1, .ret none)
        | .ub => (r.2.1, .ub)
      else if notice r.2.1.err then (r.2.1, .again (.status sz r.2.2)) else (r.2.1, .ret none)
    | _ => (c, .more (.status sz got))

/-! ## `wolfSSH_SFTP_SendWritePacket` -/

/-- `WS_SFTP_SEND_WRITE_STATE` (src/wolfsftp.c:333-350): sending the head of the request, its data (what is left), reading the
header of the reply, the status. -/
inductive Wr where
  | send (buf : Bytes) (idx : Nat)
  | body (rest : Bytes)
  | head (got : Bytes)
  | status (sz : Nat) (got : Bytes)
  deriving DecidableEq, Repr

/-- `wolfSSH_SFTP_SendWritePacket` (src/wolfsftp.c:8189-8403) for `data`; on success all of it was sent. While the data goes out the
function does not come back. -/
def wrStep (data : Bytes) (ev : Ev) (c : Chan) : Wr → Chan × Out Wr Nat
  | .send buf idx =>
    match ev with
    | .send (.error _) err _ => if notice err then ({ c with err := err }, .again (.send buf idx)) else ({ c with err := err }, .ret none)
    | .send (.ok k) err pending =>
      let s := sendSome k err c buf idx
      if s.2 < buf.length ∨ pending then ({ s.1 with err := some .wantWrite }, .again (.send buf s.2)) else (s.1, .more (.body data))
    | _ => (c, .more (.send buf idx))
  | .body rest =>
    match ev with
    | .body (.error _) err after => if notice err then ({ c with err := after }, .more (.body rest)) else ({ c with err := err }, .ret none)
    | .body (.ok k) err _ =>
      let s := sendSome k err c rest 0
      if s.2 < rest.length then (s.1, .more (.body (rest.drop s.2))) else (s.1, .more (.head []))
    | _ => (c, .more (.body rest))
  | .head got =>
    match ev with
    | .read k err =>
      match getHeader k err c got with
      | (c, .short got) => if notice c.err then (c, .again (.head got)) else ({ c with err := some .fatal }, .ret none)
      | (c, .bad _) => if notice c.err then (c, .again (.head [])) else ({ c with err := some .fatal }, .ret none)
      | (c, .ok type id sz) =>
        if id ≠ c.reqId then ({ c with err := some .fatal }, .ret none)
        else
          let c := { c with reqId := add32 c.reqId 1 }
          if type ≠ 101 then ({ c with err := some .fatal }, .ret none) else (c, .more (.status sz []))
    | _ => (c, .more (.head got))
  | .status sz got =>
    match ev with
    | .read k err =>
      let r := bufRead sz k err c got
      if r.1 then
        match doStatus r.2.2 with
        | .ok code _ => (r.2.1, if code = FTP_OK then .ret (some data.length) else .ret none)
        | .err .. => (r.2.1, .ret none)
        | .ub => (r.2.1, .ub)
      else if want r.2.1.err then (r.2.1, .again (.status sz r.2.2)) else (r.2.1, .ret none)
    | _ => (c, .more (.status sz got))

/-! ## `wolfSSH_SFTP_Close` -/

/-- `WS_SFTP_CLOSE_STATE` (src/wolfsftp.c:353-365). -/
inductive Close where
  | send
  | head (got : Bytes)
  | status (sz : Nat) (got : Bytes)
  deriving DecidableEq, Repr

/-- `wolfSSH_SFTP_Close` (src/wolfsftp.c:8880-8983). A notice behind the sending keeps the state, even if all is sent. -/
def closeStep (handle : Bytes) (ev : Ev) (c : Chan) : Close → Chan × Out Close Unit
  | .send =>
    match ev with
    | .send res err _ =>
      match sendType res err 4 handle c with
      | (c, none) => (c, .more .send)
      | (c, some done) =>
        if notice c.err then (c, .again .send) else if done then (c, .more (.head [])) else (c, .ret none)
    | _ => (c, .more .send)
  | .head got =>
    match ev with
    | .read k err =>
      match getHeader k err c got with
      | (c, .short got) => if notice c.err then (c, .again (.head got)) else (c, .ret none)
      | (c, .bad _) => if notice c.err then (c, .again (.head [])) else (c, .ret none)
      | (c, .ok type _ sz) => if type ≠ 101 then (c, .ret none) else (c, .more (.status sz []))
    | _ => (c, .more (.head got))
  | .status sz got =>
    match ev with
    | .read k err =>
      let r := bufRead sz k err c got
      if r.1 then
        match doStatus r.2.2 with
        | .ok code _ => (r.2.1, if code = FTP_OK then .ret (some ()) else .ret none)
        | .err .. => (r.2.1, .ret none)
        | .ub => (r.2.1, .ub)
      else if notice r.2.1.err then (r.2.1, .again (.status sz r.2.2)) else (r.2.1, .ret none)
    | _ => (c, .more (.status sz got))

/-! ## Offsets -/

/-- `SFTP_OFST` (wolfssh/internal.h:953-957). -/
structure Slot where
  ofst : Nat × Nat := (0, 0)
  src : Bytes := []
  dst : Bytes := []
  deriving DecidableEq, Repr

/-- `ssh->sftpOfst`, `WOLFSSH_MAX_SFTPOFST` slots (wolfssh/internal.h:933, 1154), cleared (`wolfSSH_SFTP_ClearOfst`,
src/wolfsftp.c:9700-9718). -/
def noOfst : List Slot := [{}, {}, {}]

/-- `wolfSSH_SFTP_SaveOfst` (src/wolfsftp.c:9609-9650): the first slot without an offset; `false`: an error. -/
def saveOfst (src dst : Bytes) (ofst : Nat × Nat) : List Slot → List Slot × Bool
  | [] => ([], false)
  | s :: t =>
    if s.ofst.1 = 0 ∧ s.ofst.2 = 0 then
      if 256 ≤ src.length ∨ 256 ≤ dst.length then (s :: t, false) else (⟨ofst, src, dst⟩ :: t, true)
    else
      let r := saveOfst src dst ofst t
      (s :: r.1, r.2)

/-- `wolfSSH_SFTP_GetOfst` (src/wolfsftp.c:9663-9697): the offset of the first slot with these names, which is cleared. -/
def getOfst (src dst : Bytes) : List Slot → (Nat × Nat) × List Slot
  | [] => ((0, 0), [])
  | s :: t =>
    if src.length = s.src.length ∧ src = s.src ∧ dst.length = s.dst.length ∧ dst = s.dst then (s.ofst, {} :: t)
    else
      let r := getOfst src dst t
      (r.1, s :: r.2)

/-! ## `wolfSSH_SFTP_Get` -/

/-- `WS_SFTP_GET_STATE` (src/wolfsftp.c:252-280) with the state of the function it is in. `write`: read, to be written to the local
file; `done`: back, with success or not. -/
inductive GetPh where
  | stat (s : Stat)
  | open (o : Open)
  | local
  | read (r : Rd)
  | write (data : Bytes)
  | close (s : Close)
  | done (ok : Bool)
  | ub
  deriving DecidableEq, Repr

/-- A fetch: the connection, the handle, `gOfst`, the local file, the saved offsets. -/
structure Get where
  c : Chan
  h : Hd
  ofst : Nat × Nat
  file : Bytes
  tab : List Slot
  ph : GetPh
  deriving DecidableEq, Repr

/-- The arguments. -/
structure Args where
  src : Bytes
  dst : Bytes
  resume : Bool

/-- `wolfSSH_SFTP_Open` from the start. -/
def freshOpen (c : Chan) (path : Bytes) (reason : Nat) : Open := .send (openPacket c.reqId path reason) 0

/-- `wolfSSH_SFTP_SendReadPacket` from the start. -/
def freshRead (g : Get) : GetPh := .read (.send (readPacket g.c.reqId g.h.handle g.ofst MAX_RW) 0)

/-- `STATE_GET_LSTAT` with the result (src/wolfsftp.c:9781-9804). -/
def getStat (A : Args) (g : Get) (c : Chan) : Out Stat Nat → Get
  | .more s => { g with c := c, ph := .stat s }
  | .again s => if notice c.err then { g with c := recall c, ph := .stat s } else { g with c := c, ph := .done false }
  | .ret none => if notice c.err then { g with c := recall c, ph := .stat .send } else { g with c := c, ph := .done false }
  | .ret (some per) =>
    if per &&& 0o770000 ≠ 0o100000 ∧ per &&& 0o770000 ≠ 0o120000 then { g with c := { c with err := some .fatal }, ph := .done false }
    else { g with c := recall c, h := { g.h with cap := MAX_HANDLE }, ph := .open (freshOpen (recall c) A.src 1) }
  | .ub => { g with ph := .ub }

/-- `STATE_GET_OPEN_REMOTE` with the result, `STATE_GET_LOOKUP_OFFSET` (src/wolfsftp.c:9806-9829). -/
def getOpen (A : Args) (g : Get) (c : Chan) (h : Hd) : Out Open Unit → Get
  | .more o => { g with c := c, h := h, ph := .open o }
  | .again o => if notice c.err then { g with c := recall c, h := h, ph := .open o } else { g with c := c, h := h, ph := .done false }
  | .ret none =>
    if notice c.err then { g with c := recall c, h := h, ph := .open (freshOpen (recall c) A.src 1) }
    else { g with c := c, h := h, ph := .done false }
  | .ret (some _) =>
    let r := if A.resume then getOfst A.src A.dst g.tab else (g.ofst, g.tab)
    { g with c := c, h := h, ofst := r.1, tab := r.2, ph := .local }
  | .ub => { g with ph := .ub }

/-- `STATE_GET_READ` with the result of `wolfSSH_SFTP_SendReadPacket` (src/wolfsftp.c:9869-9885), `STATE_GET_CLOSE_LOCAL`. -/
def getRead (g : Get) (c : Chan) : Out Rd Bytes → Get
  | .more r => { g with c := c, ph := .read r }
  | .again r => if notice c.err then { g with c := recall c, ph := .read r } else { g with c := c, ph := .done false }
  | .ret none =>
    if notice c.err then { g with c := recall c, ph := freshRead { g with c := recall c } } else { g with c := c, ph := .done false }
  | .ret (some data) => { g with c := c, ph := .write data }
  | .ub => { g with ph := .ub }

/-- `fwrite` of what was read, the end of the loop, `wolfSSH_SFTP_SaveOfst` (src/wolfsftp.c:9886-9929). -/
def getWrite (A : Args) (g : Get) (n : Nat) (data : Bytes) : Get :=
  let g := { g with file := g.file ++ data.take n }
  if n < data.length then { g with c := { g.c with err := some .badFile }, ph := .done false }
  else
    let g := { g with ofst := addAssign64 g.ofst data.length }
    if 0 < data.length ∧ g.c.int = false then { g with ph := freshRead g }
    else
      let g := { g with tab := if g.c.int then (saveOfst A.src A.dst g.ofst g.tab).1 else g.tab, c := { g.c with int := false } }
      if 0 < g.h.cap then { g with ph := .close .send } else { g with ph := .done true }

/-- `STATE_GET_CLOSE_REMOTE` with the result (src/wolfsftp.c:9931-9945). -/
def getClose (g : Get) (c : Chan) : Out Close Unit → Get
  | .more s => { g with c := c, ph := .close s }
  | .again s => if want c.err then { g with c := recall c, ph := .close s } else { g with c := c, ph := .done false }
  | .ret none => if want c.err then { g with c := recall c, ph := .close .send } else { g with c := c, ph := .done false }
  | .ret (some _) => { g with c := c, ph := .done true }
  | .ub => { g with ph := .ub }

/-- `wolfSSH_SFTP_Get` (src/wolfsftp.c:9743-9976), called again until it is done. -/
def getStep (A : Args) (g : Get) (ev : Ev) : Get :=
  if ev.interrupts then { g with c := { g.c with int := true } }
  else
    match g.ph with
    | .stat s => let r := statStep A.src ev g.c s; getStat A g r.1 r.2
    | .open o => let r := openStep ev g.c g.h o; getOpen A g r.1 r.2.1 r.2.2
    | .local =>
      match ev with
      | .local _ true _ =>
        let g := { g with file := if 0 < g.ofst.1 ∨ 0 < g.ofst.2 then g.file else [] }
        { g with ph := freshRead g }
      | .local _ false _ => { g with c := { g.c with err := some .badFile }, ph := .done false }
      | _ => g
    | .read r => let o := rdStep MAX_RW ev g.c r; getRead g o.1 o.2
    | .write data =>
      match ev with
      | .file n => getWrite A g n data
      | _ => g
    | .close s => let r := closeStep g.h.handle ev g.c s; getClose g r.1 r.2
    | .done _ => g
    | .ub => g

/-- A fetch, from the first call on. -/
def getStart (c : Chan) (file : Bytes) (tab : List Slot) : Get := ⟨recall c, .fresh, (0, 0), file, tab, .stat .send⟩

/-- A fetch and what it meets. -/
def getRun (A : Args) (g : Get) (evs : List Ev) : Get := evs.foldl (getStep A) g

/-! ## `wolfSSH_SFTP_Put` -/

/-- `WS_SFTP_PUT_STATE` (src/wolfsftp.c:283-310) with the state of the function it is in. `fill`: to read from the local file;
`write`: to be written, `data` (`state->r`, `state->rSz`). -/
inductive PutPh where
  | local
  | open (o : Open)
  | fill
  | write (w : Wr) (data : Bytes)
  | close (s : Close)
  | done (ok : Bool)
  | ub
  deriving DecidableEq, Repr

/-- A store: the connection, the handle, `pOfst`, the position in the local file, the saved offsets. -/
structure Put where
  c : Chan
  h : Hd
  ofst : Nat × Nat
  pos : Nat
  tab : List Slot
  ph : PutPh
  deriving DecidableEq, Repr

/-- `wolfSSH_SFTP_SendWritePacket` from the start. -/
def freshWrite (p : Put) (data : Bytes) : PutPh := .write (.send (writeHead p.c.reqId p.h.handle p.ofst data.length) 0) data

/-- `WOLFSSH_FXF_WRITE | WOLFSSH_FXF_CREAT | WOLFSSH_FXF_TRUNC`. -/
def PUT_FLAGS : Nat := 0x1A

/-- `STATE_PUT_LOOKUP_OFFSET`, `STATE_PUT_OPEN_LOCAL` (src/wolfsftp.c:10027-10103). -/
def putLocal (A : Args) (p : Put) (irregular fopen fseek : Bool) : Put :=
  let r := if A.resume then getOfst A.src A.dst p.tab else (p.ofst, p.tab)
  let p := { p with ofst := r.1, tab := r.2 }
  if irregular ∨ ¬ fopen ∨ (A.resume ∧ ¬ fseek) then { p with c := { p.c with err := some .badFile }, ph := .done false }
  else
    { p with
      c := recall p.c, pos := if A.resume then (p.ofst.2 <<< 32) ||| p.ofst.1 else 0
      ph := .open (freshOpen (recall p.c) A.dst PUT_FLAGS) }

/-- `STATE_PUT_OPEN_REMOTE` with the result (src/wolfsftp.c:10105-10124). -/
def putOpen (A : Args) (p : Put) (c : Chan) (h : Hd) : Out Open Unit → Put
  | .more o => { p with c := c, h := h, ph := .open o }
  | .again o => if want c.err then { p with c := recall c, h := h, ph := .open o } else { p with c := c, h := h, ph := .done false }
  | .ret none =>
    if want c.err then { p with c := recall c, h := h, ph := .open (freshOpen (recall c) A.dst PUT_FLAGS) }
    else { p with c := c, h := h, ph := .done false }
  | .ret (some _) => { p with c := c, h := h, ph := .fill }
  | .ub => { p with ph := .ub }

/-- What follows the loop (src/wolfsftp.c:10165-10195): `ret` is `WS_SUCCESS`, whatever ended the loop. -/
def putEnd (A : Args) (p : Put) : Put :=
  let p := { p with tab := if p.c.int then (saveOfst A.src A.dst p.ofst p.tab).1 else p.tab, c := { p.c with int := false } }
  if 0 < p.h.cap then { p with ph := .close .send } else { p with ph := .done true }

/-- `fread` (src/wolfsftp.c:10129-10136) from the local file `file`. -/
def putFill (A : Args) (file : Bytes) (p : Put) (n : Nat) : Put :=
  let data := (file.drop p.pos).take (cmin n MAX_RW)
  if data.length = 0 then putEnd A p
  else
    let p := { p with pos := p.pos + data.length }
    { p with ph := freshWrite p data }

/-- `STATE_PUT_WRITE` with the result of `wolfSSH_SFTP_SendWritePacket` (src/wolfsftp.c:10145-10163). -/
def putWrite (A : Args) (p : Put) (c : Chan) (data : Bytes) : Out Wr Nat → Put
  | .more w => { p with c := c, ph := .write w data }
  | .again w => if notice c.err then { p with c := recall c, ph := .write w data } else putEnd A { p with c := c }
  | .ret none =>
    if notice c.err then { p with c := recall c, ph := freshWrite { p with c := recall c } data } else putEnd A { p with c := c }
  | .ret (some n) =>
    let p := { p with c := c, ofst := addAssign64 p.ofst n }
    let left := data.take (data.length - n)
    if 0 < n ∧ c.int = false then
      if left.length = 0 then { p with ph := .fill } else { p with ph := freshWrite p left }
    else putEnd A p
  | .ub => { p with ph := .ub }

/-- `STATE_PUT_CLOSE_REMOTE` with the result (src/wolfsftp.c:10181-10195). -/
def putClose (p : Put) (c : Chan) : Out Close Unit → Put
  | .more s => { p with c := c, ph := .close s }
  | .again s => if notice c.err then { p with c := recall c, ph := .close s } else { p with c := c, ph := .done false }
  | .ret none => if notice c.err then { p with c := recall c, ph := .close .send } else { p with c := c, ph := .done false }
  | .ret (some _) => { p with c := c, ph := .done true }
  | .ub => { p with ph := .ub }

/-- `wolfSSH_SFTP_Put` (src/wolfsftp.c:9987-10212) of a local file with contents `file`, called again until it is done. -/
def putStep (A : Args) (file : Bytes) (p : Put) (ev : Ev) : Put :=
  if ev.interrupts then { p with c := { p.c with int := true } }
  else
    match p.ph with
    | .local =>
      match ev with
      | .local irregular fopen fseek => putLocal A p irregular fopen fseek
      | _ => p
    | .open o => let r := openStep ev p.c p.h o; putOpen A p r.1 r.2.1 r.2.2
    | .fill =>
      match ev with
      | .file n => putFill A file p n
      | _ => p
    | .write w data => let r := wrStep data ev p.c w; putWrite A p r.1 data r.2
    | .close s => let r := closeStep p.h.handle ev p.c s; putClose p r.1 r.2
    | .done _ => p
    | .ub => p

/-- A store, from the first call on. -/
def putStart (c : Chan) (tab : List Slot) : Put := ⟨recall c, .fresh, (0, 0), 0, tab, .local⟩

/-- A store and what it meets. -/
def putRun (A : Args) (file : Bytes) (p : Put) (evs : List Ev) : Put := evs.foldl (putStep A file) p

end Wolf.SftpClient
