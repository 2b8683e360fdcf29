import Verif.Model.Wire
import Verif.Model.NameList
import Verif.Model.Buffer
import Verif.Model.Kex
/-!
# Channels (src/internal.c:3717-4028, 7632-7708, 10888-11335, 11909-12105, 20038-20555,
src/ssh.c:1106-1430, 3459-4085)

The channel list is a Lean list, a `WOLFSSH_CHANNEL*` is a position in it. What the transport and
the cryptography do is an argument: `SendEnv` says whether a packet could be prepared and bundled
and what `wolfSSH_SendPacket` returned. Fields named `g...` are ghosts: they record history and no
function reads them. Undefined behaviour is `none`. The reassembly of packets is elsewhere: here a
received message is its payload (`mem`), read from index `idx` up to `len`.
-/

namespace Wolf.Channel
open Wolf Wolf.Wire Wolf.NameList Wolf.Buffer

/-- A return code, `none` is `WS_SUCCESS`. -/
abbrev Ret := Option Err

/-- What this side has queued on one channel (ghost). -/
inductive Tx where
  | data (bytes : Bytes)
  | ext (bytes : Bytes)
  /-- `done`: `wolfSSH_SendPacket` reported success, i.e. the packet left the output buffer -/
  | eof (done : Bool)
  | close
  deriving DecidableEq, Repr

/-- Ghost history of one channel. -/
structure Ghost where
  /-- opened by the peer -/
  byPeer : Bool := false
  /-- initial receive window -/
  initial : Nat := 0
  /-- bytes accepted as channel data, as stderr, and taken but thrown away -/
  got : Bytes := []
  gotExt : Bytes := []
  dropped : Nat := 0
  /-- bytes handed to the application; `taken` counts also those a failed read threw away -/
  gave : Bytes := []
  taken : Bytes := []
  gaveExt : Bytes := []
  failedReads : Nat := 0
  /-- credit sent to the peer, and credit given up -/
  credited : Nat := 0
  lost : Nat := 0
  /-- send window granted by the peer so far, data bytes sent -/
  granted : Nat := 0
  sent : Nat := 0
  tx : List Tx := []
  deriving DecidableEq, Repr

/-- `WOLFSSH_CHANNEL` (wolfssh/internal.h, the fields flow control and lifetime depend on). -/
structure Chan where
  id : Nat
  ctype : Nat
  windowSz : Nat
  maxPacketSz : Nat
  peerId : Nat := 0
  peerWindowSz : Nat := 0
  peerMaxPacketSz : Nat := 0
  inBuf : Buf
  ext : Buf
  eofRxd : Bool := false
  eofTxd : Bool := false
  closeTxd : Bool := false
  openConfirmed : Bool := false
  pending : Nat := 0
  g : Ghost := {}
  deriving DecidableEq, Repr

/-- Connection-level messages put into the output buffer (ghost log), with the channel number they
carry on the wire. -/
inductive OutMsg where
  | data (peer : Nat) (bytes : Bytes)
  | ext (peer : Nat) (bytes : Bytes)
  | eof (peer : Nat)
  | close (peer : Nat)
  | adjust (peer n : Nat)
  | openConf (peer id : Nat)
  | openFail (peer reason : Nat)
  | openReq (id : Nat)
  | request (peer : Nat)
  | kexInit
  deriving DecidableEq, Repr

/-- Which side this is. -/
abbrev Side := Wolf.NameList.Side

/-- The session as far as channels are concerned. -/
structure Conn where
  server : Bool
  chans : List Chan := []
  listSz : Nat := 0
  nextChannel : Nat := 0
  keying : Bool := false
  lastRxId : Nat := 0
  defaultPeer : Nat := 0
  /-- `ctx->windowSz`, `ctx->maxPacketSz` -/
  ctxWindow : Nat
  ctxMaxPacket : Nat
  out : List OutMsg := []
  deriving DecidableEq, Repr

/-- What happens to one packet: `IsMessageAllowed(WS_MSG_SEND)`, failure of `PreparePacket` or
`BundlePacket` (nothing queued), result of `wolfSSH_SendPacket`. -/
structure SendEnv where
  allowed : Bool := true
  prep : Ret := none
  sent : Ret := none
  deriving DecidableEq, Repr

/-- The loop of `ChannelFind` (src/internal.c:3832-3841): position and channel. -/
def findLoop (p : Chan → Bool) : List Chan → Nat → Nat → Option (Nat × Chan)
  | [], _, _ => none
  | ch :: rest, listSz, i =>
    if listSz = 0 then none
    else if p ch then some (i, ch)
    else findLoop p rest (listSz - 1) (i + 1)

/-- `ChannelFind(ssh, id, WS_CHANNEL_ID_SELF)` (src/internal.c:3819-3848). -/
def findSelf (c : Conn) (id : Nat) : Option (Nat × Chan) :=
  findLoop (fun ch => id == ch.id) c.chans c.listSz 0

/-- `ChannelFind(ssh, id, WS_CHANNEL_ID_PEER)` (src/internal.c:3819-3848). -/
def findPeer (c : Conn) (id : Nat) : Option (Nat × Chan) :=
  findLoop (fun ch => id == ch.peerId) c.chans c.listSz 0

/-- Store through a channel pointer. -/
def setChan (c : Conn) (i : Nat) (ch : Chan) : Conn := { c with chans := c.chans.set i ch }

/-- The id search of `ChannelNew` (src/internal.c:3739-3743). The C loop has no bound; `fuel` is
one more than the number of channels, `none` means it ran out (`nextId_total` shows it does not). -/
def nextId (c : Conn) : Nat → Nat → Option Nat
  | 0, _ => none
  | fuel + 1, n => if (findSelf c n).isSome then nextId c fuel (add32 n 1) else some n

/-- `ChannelNew` (src/internal.c:3717-3783); `buffer` is the memory `WMALLOC(initialWindowSz)`
returned. Results: the channel (`none`: NULL) and the session; `none` if the search does not end. -/
def channelNew (c : Conn) (ctype window maxPacket : Nat) (buffer : Option Bytes) (byPeer : Bool) :
    Option (Option Chan × Conn) :=
  match buffer with
  | none => some (none, c)
  | some m =>
    match nextId c (c.chans.length + 1) c.nextChannel with
    | none => none
    | some id =>
      match bufferInit 0 none with
      | (none, some extb) =>
        some (some { id := id, ctype := ctype, windowSz := window, maxPacketSz := maxPacket,
                     inBuf := ⟨m, window, 0, 0, true⟩, ext := extb,
                     g := { initial := window, byPeer := byPeer } },
              { c with nextChannel := add32 id 1 })
      | _ => some (none, { c with nextChannel := add32 id 1 })

/-- `ChannelUpdatePeer` (src/internal.c:3851-3866). A confirmation (re)starts the send window. -/
def updatePeer (ch : Chan) (peerId window maxPacket : Nat) : Chan :=
  { ch with peerId := peerId, peerWindowSz := window, peerMaxPacketSz := maxPacket,
            openConfirmed := true, g := { ch.g with granted := ch.g.sent + window } }

/-- `ChannelAppend` (src/internal.c:3918-3944). -/
def append (c : Conn) (ch : Chan) : Conn :=
  match c.chans with
  | [] => { c with chans := [ch], listSz := 1 }
  | l => { c with chans := l ++ [ch], listSz := add32 c.listSz 1 }

/-- `ChannelRemove` (src/internal.c:3947-3992). The result is an error exactly when the counter ran
out: the C tests `listSz == 0` after the loop, where `listSz` was decremented for each channel passed. -/
def remove (c : Conn) (p : Chan → Bool) : Ret × Conn :=
  if c.chans = [] then (some .invalidChanId, c)
  else
    match findLoop p c.chans c.listSz 0 with
    | some (i, _) =>
      (if c.listSz - i = 0 then some .invalidChanId else none,
       { c with chans := c.chans.eraseIdx i, listSz := sub32 c.listSz 1 })
    | none => (if c.listSz - c.chans.length = 0 then some .invalidChanId else none, c)

/-- `ChannelRemove` by own id. -/
def removeSelf (c : Conn) (id : Nat) : Ret × Conn := remove c (fun ch => id == ch.id)

/-- `ChannelRemove` by the peer's id. -/
def removePeer (c : Conn) (id : Nat) : Ret × Conn := remove c (fun ch => id == ch.peerId)

/-- `ChannelPutData` (src/internal.c:3995-4028); `data` is the `dataSz` bytes at the pointer. -/
def putData (ch : Chan) (data : Bytes) : Option (Ret × Chan) :=
  if data.length > ch.windowSz then some (some .fatal, ch)
  else if ch.inBuf.length < ch.inBuf.bufferSz ∧
      add32 ch.inBuf.length data.length ≤ ch.inBuf.bufferSz then
    match write ch.inBuf.mem ch.inBuf.length data with
    | none => none
    | some m =>
      some (none, { ch with inBuf := { ch.inBuf with mem := m, length := add32 ch.inBuf.length data.length },
                            windowSz := sub32 ch.windowSz data.length,
                            g := { ch.g with got := ch.g.got ++ data } })
  else some (some .recvOverflow, ch)

/-- `SendChannelWindowAdjust` (src/internal.c:20502-20555): result, `*bundled`, session. -/
def sendWindowAdjust (c : Conn) (id n : Nat) (e : SendEnv) : Ret × Bool × Conn :=
  match findSelf c id with
  | none => (some .invalidChanId, false, c)
  | some (i, ch) =>
    if e.allowed = false then (some .msgNotAllowed, false, c)
    else if e.prep ≠ none then (e.prep, false, c)
    else
      let k := if e.sent = some .socketError then 0 else n
      (e.sent, true,
       { setChan c i { ch with g := { ch.g with credited := ch.g.credited + k } } with
         out := c.out ++ [.adjust ch.peerId n] })

/-- Change the channel at a position. -/
def modChan (c : Conn) (i : Nat) (f : Chan → Chan) : Conn :=
  match c.chans[i]? with
  | some ch => setChan c i (f ch)
  | none => c

/-- `ChannelCreditWindow` (src/internal.c:7632-7673) on the channel at position `i`. Credit refused
for overflow is gone for a caller that has raised the local window: ghost `lost`. -/
def creditWindow (c : Conn) (i amount : Nat) (e : SendEnv) : Ret × Conn :=
  match c.chans[i]? with
  | none => (some .badArgument, c)
  | some ch =>
    if amount > sub32 4294967295 ch.pending then
      (some .overflowE, setChan c i { ch with g := { ch.g with lost := ch.g.lost + amount } })
    else
      let total := add32 ch.pending amount
      if total = 0 then (none, c)
      else if c.keying then (none, setChan c i { ch with pending := total })
      else
        let c1 := setChan c i { ch with pending := 0 }
        let (r, bundled, c2) := sendWindowAdjust c1 ch.id total e
        if bundled = false ∨ r = some .socketError then
          (r, modChan c2 i (fun ch => { ch with pending := total }))
        else (r, c2)

/-- The loop of `SendPendingChannelWindowAdjust` (src/internal.c:7695-7702) from position `i`, `n`
channels left; `ret` is the first failure. -/
def flushPending (es : Nat → SendEnv) : Nat → Nat → Ret → Conn → Ret × Conn
  | 0, _, ret, c => (ret, c)
  | n + 1, i, ret, c =>
    match c.chans[i]? with
    | none => (ret, c)
    | some ch =>
      if ch.pending ≠ 0 then
        let rc := creditWindow c i 0 (es i)
        flushPending es n (i + 1) (if rc.1 ≠ none ∧ ret = none then rc.1 else ret) rc.2
      else flushPending es n (i + 1) ret c

/-- `SendPendingChannelWindowAdjust` (src/internal.c:7677-7708). -/
def sendPendingWindowAdjust (c : Conn) (es : Nat → SendEnv) : Ret × Conn :=
  if c.keying then (none, c) else flushPending es c.chans.length 0 none c

/-- A queued EOF or CLOSE leaves the log entry on the channel found and on the wire. -/
def noteTx (c : Conn) (i : Nat) (ch : Chan) (t : Tx) (m : OutMsg) : Conn :=
  { setChan c i { ch with g := { ch.g with tx := ch.g.tx ++ [t] } } with out := c.out ++ [m] }

/-- `SendChannelEof` (src/internal.c:20038-20094). -/
def sendEof (c : Conn) (peerId : Nat) (e : SendEnv) : Ret × Conn :=
  if e.allowed = false then (some .msgNotAllowed, c)
  else
    match findPeer c peerId with
    | none => (some .invalidChanId, c)
    | some (i, ch) =>
      if ch.eofTxd then (none, c)
      else if e.prep ≠ none then (e.prep, c)
      else (e.sent, noteTx c i (if e.sent = none then { ch with eofTxd := true } else ch)
              (.eof (e.sent == none)) (.eof ch.peerId))

/-- `SendChannelExit` (src/internal.c:20154-20205) and `SendChannelEow` (20097-20152): a channel
request on the channel found by the peer's id. -/
def sendRequest (c : Conn) (peerId : Nat) (e : SendEnv) : Ret × Conn :=
  match findPeer c peerId with
  | none => (some .invalidChanId, c)
  | some (_, ch) =>
    if e.prep ≠ none then (e.prep, c)
    else (e.sent, { c with out := c.out ++ [.request ch.peerId] })

/-- `SendChannelClose` (src/internal.c:20208-20253). -/
def sendClose (c : Conn) (peerId : Nat) (e : SendEnv) : Ret × Conn :=
  match findPeer c peerId with
  | none => (some .invalidChanId, c)
  | some (i, ch) =>
    if ch.closeTxd then (none, c)
    else if e.prep ≠ none then (e.prep, c)
    else (e.sent, noteTx c i { ch with closeTxd := true } .close (.close ch.peerId))

/-- A key exchange starts: `SendKexInit` (src/internal.c:13324-13486) marks the session as keying and
queues KEXINIT, on this side's initiative or in answer to the peer's. -/
def startKeying (c : Conn) : Conn :=
  if c.keying then c else { c with keying := true, out := c.out ++ [.kexInit] }

/-- Sending what is pending before new data is queued (src/internal.c:20277-20290): the result of
`wolfSSH_SendPacket` if channel data is pending (`plainSz > 0`), its result if other output is
pending, and whether the high-water callback it ends with started a key exchange (4312, 581-620,
544-560). -/
structure Flush where
  plain : Ret := none
  rest : Ret := none
  keys : Bool := false
  deriving DecidableEq, Repr

/-- The session after the flush. -/
def flushed (c : Conn) (f : Flush) : Conn := if f.keys then startKeying c else c

/-- `SendChannelData` (src/internal.c:20256-20373) and `SendChannelExtendedData` (20376-20495): the
count sent or an error. Note the second flush: if it stalls, the function reports all the data as
sent. -/
def sendData (isExt : Bool) (c : Conn) (id : Nat) (data : Bytes) (flush : Flush) (e : SendEnv) :
    Except Err Nat × Conn :=
  if c.keying then (.error .rekeying, c)
  else
    let c := flushed c flush
    match flush.plain, flush.rest with
    | some r, _ => (.error r, c)
    | none, some .wantWrite => (.ok data.length, c)
    | none, some r => (.error r, c)
    | none, none =>
      match findSelf c id with
      | none => (.error .invalidChanId, c)
      | some (i, ch) =>
        if ch.eofTxd then (.error .eof, c)
        else if ch.peerWindowSz = 0 then (.error .windowFull, c)
        else
          let bound := cmin (cmin ch.peerWindowSz ch.peerMaxPacketSz) ch.maxPacketSz
          if bound = 0 ∧ data.length ≠ 0 then (.error .windowFull, c)
          else
            let n := if data.length > bound then bound else data.length
            match e.prep with
            | some r => (.error r, c)
            | none =>
              let bytes := data.take n
              let ch' := { ch with peerWindowSz := sub32 ch.peerWindowSz n,
                                   g := { ch.g with sent := ch.g.sent + n } }
              let c' := noteTx c i ch' (if isExt then .ext bytes else .data bytes)
                          (if isExt then .ext ch.peerId bytes else .data ch.peerId bytes)
              match e.sent with
              | none => (.ok n, c')
              | some .wantWrite => (.ok n, c')
              | some r => (.error r, c')

/-! ## Messages received -/

/-- `n` payload bytes at `off` (a pointer into the packet and a length). -/
def slice (mem : Bytes) (off n : Nat) : Option Bytes :=
  if off + n ≤ mem.length then some ((mem.drop off).take n) else none

/-- Fields of a window adjustment (src/internal.c:11916-11921). -/
def parseAdjust (mem : Bytes) (len idx : Nat) : Res (Nat × Nat) :=
  Wolf.Kex.Res.bind (getUint32 mem len idx) fun id b =>
  Wolf.Kex.Res.bind (getUint32 mem len b) fun n b => .ok (id, n) b

/-- More window from the peer (src/internal.c:11939-11942). -/
def addPeerWindow (ch : Chan) (n : Nat) : Chan :=
  { ch with peerWindowSz := add32 ch.peerWindowSz n, g := { ch.g with granted := ch.g.granted + n } }

/-- `DoChannelWindowAdjust` (src/internal.c:11909-11949). -/
def doWindowAdjust (c : Conn) (mem : Bytes) (len idx : Nat) : Option (Ret × Conn) :=
  match parseAdjust mem len idx with
  | .ub => none
  | .err e _ => some (some e, c)
  | .ok (id, n) _ =>
    match findSelf c id with
    | none => some (some .invalidChanId, c)
    | some (i, ch) =>
      if n > sub32 4294967295 ch.peerWindowSz then some (some .overflowE, c)
      else some (none, setChan c i (addPeerWindow ch n))

/-- Fields of a data message (src/internal.c:11961-11965). -/
def parseData (mem : Bytes) (len idx : Nat) : Res (Nat × Nat) :=
  Wolf.Kex.Res.bind (getUint32 mem len idx) fun id b =>
  Wolf.Kex.Res.bind (getSize mem len b) fun n b => .ok (id, n) b

/-- `DoChannelData` (src/internal.c:11952-11999). -/
def doData (c : Conn) (mem : Bytes) (len idx : Nat) : Option (Ret × Conn) :=
  match parseData mem len idx with
  | .ub => none
  | .err e _ => some (some e, c)
  | .ok (id, n) begin_ =>
    if len < begin_ then some (some .recvOverflow, c)
    else
      match findSelf c id with
      | none => some (some .invalidChanId, c)
      | some (i, ch) =>
        if n > ch.maxPacketSz then some (some .recvOverflow, c)
        else
          match slice mem begin_ n with
          | none => none
          | some d =>
            match putData ch d with
            | none => none
            | some (some r, _) => some (some r, c)
            | some (none, ch') => some (some .chanRxd, { setChan c i ch' with lastRxId := id })

/-- Fields of an extended data message (src/internal.c:12053-12059). -/
def parseExt (mem : Bytes) (len idx : Nat) : Res (Nat × Nat × Nat) :=
  Wolf.Kex.Res.bind (getUint32 mem len idx) fun id b =>
  Wolf.Kex.Res.bind (getUint32 mem len b) fun code b =>
  Wolf.Kex.Res.bind (getSize mem len b) fun n b => .ok (id, code, n) b

/-- Storing stderr bytes charges the window (src/internal.c:12070-12079). -/
def putExt (ch : Chan) (b : Buf) (d : Bytes) (window : Nat) : Chan :=
  { ch with ext := b, windowSz := window, g := { ch.g with gotExt := ch.g.gotExt ++ d } }

/-- Storing stderr bytes (src/internal.c:12070-12079). -/
def storeExt (alloc : Nat → Option Bytes) (c : Conn) (i : Nat) (ch : Chan) (id n : Nat) (d : Bytes) :
    Option (Ret × Conn) :=
  (appendBuffer alloc ch.ext d).map fun rb =>
    match rb.1 with
    | some r => (some r, setChan c i { ch with ext := rb.2 })
    | none => (some .extData, { setChan c i (putExt ch rb.2 d (sub32 ch.windowSz n)) with lastRxId := id })

/-- Extended data of another type is thrown away and credited back, though it was not charged to the
window (src/internal.c:12081-12100). -/
def dropExt (c : Conn) (i : Nat) (ch : Chan) (id n : Nat) (e : SendEnv) : Ret × Conn :=
  let rc := creditWindow (setChan c i { ch with g := { ch.g with dropped := ch.g.dropped + n } }) i n e
  (if rc.1 = some .wantWrite then none else rc.1, { rc.2 with lastRxId := id })

/-- `DoChannelExtendedData` (src/internal.c:12043-12105). -/
def doExtData (alloc : Nat → Option Bytes) (c : Conn) (mem : Bytes) (len idx : Nat) (e : SendEnv) :
    Option (Ret × Conn) :=
  match parseExt mem len idx with
  | .ub => none
  | .err e _ => some (some e, c)
  | .ok (id, code, n) begin_ =>
    match findSelf c id with
    | none => some (some .invalidChanId, c)
    | some (i, ch) =>
      if n > ch.maxPacketSz then some (some .recvOverflow, c)
      else if n > ch.windowSz then some (some .recvOverflow, c)
      else if code = 1 then (slice mem begin_ n).bind (storeExt alloc c i ch id n)
      else some (dropExt c i ch id n e)

/-- `DoChannelEof` (src/internal.c:11250-11286), the callback's result is ignored. -/
def doEof (c : Conn) (mem : Bytes) (len idx : Nat) (e : SendEnv) : Option (Ret × Conn) :=
  match getUint32 mem len idx with
  | .ub => none
  | .err e _ => some (some e, c)
  | .ok id _ =>
    match findSelf c id with
    | none => some (some .invalidChanId, c)
    | some (i, ch) =>
      let c1 := setChan c i { ch with eofRxd := true }
      let rc := if ch.eofTxd = false then sendEof c1 ch.peerId e else (none, c1)
      some (rc.1, { rc.2 with lastRxId := id })

/-- `DoChannelClose` (src/internal.c:11289-11332). -/
def doClose (c : Conn) (mem : Bytes) (len idx : Nat) (e : SendEnv) : Option (Ret × Conn) :=
  match getUint32 mem len idx with
  | .ub => none
  | .err e _ => some (some e, c)
  | .ok id _ =>
    match findSelf c id with
    | none => some (some .invalidChanId, c)
    | some (_, ch) =>
      let rc := if ch.closeTxd = false then sendClose c ch.peerId e else (none, c)
      match rc.1 with
      | some e => some (some e, rc.2)
      | none =>
        let rr := removeSelf rc.2 id
        match rr.1 with
        | some e => some (some e, rr.2)
        | none => some (some .channelClosed, { rr.2 with lastRxId := id })

/-- Fields of an open confirmation (src/internal.c:11143-11154). -/
def parseConf (mem : Bytes) (len idx : Nat) : Res (Nat × Nat × Nat × Nat) :=
  Wolf.Kex.Res.bind (getUint32 mem len idx) fun id b =>
  Wolf.Kex.Res.bind (getUint32 mem len b) fun peer b =>
  Wolf.Kex.Res.bind (getUint32 mem len b) fun win b =>
  Wolf.Kex.Res.bind (getUint32 mem len b) fun mx b => .ok (id, peer, win, mx) b

/-- `DoChannelOpenConf` (src/internal.c:11129-11186); `cb` is the result of `channelOpenConfCb`
(`none` also if there is none). -/
def doOpenConf (c : Conn) (mem : Bytes) (len idx : Nat) (cb : Ret) : Option (Ret × Conn) :=
  match parseConf mem len idx with
  | .ub => none
  | .err e _ => some (some e, c)
  | .ok (id, peer, win, mx) _ =>
    match findSelf c id with
    | none => some (some .invalidChanId, c)
    | some (i, ch) =>
      let c1 := setChan c i (updatePeer ch peer win mx)
      match cb with
      | some e => some (some e, c1)
      | none => some (none, { c1 with defaultPeer := peer })

/-- Fields of an open failure (src/internal.c:11203-11217). -/
def parseFail (mem : Bytes) (len idx : Nat) : Res Nat :=
  Wolf.Kex.Res.bind (getUint32 mem len idx) fun id b =>
  Wolf.Kex.Res.bind (getUint32 mem len b) fun _ b =>
  Wolf.Kex.Res.bind (getString 80 mem len b) fun _ b =>
  Wolf.Kex.Res.bind (getSize mem len b) fun _ b => .ok id b

/-- `DoChannelOpenFail` (src/internal.c:11189-11247); `cb = none` means no `channelOpenFailCb`,
`some r` that it returns `r`. -/
def doOpenFail (c : Conn) (mem : Bytes) (len idx : Nat) (cb : Option Ret) : Option (Ret × Conn) :=
  match parseFail mem len idx with
  | .ub => none
  | .err e _ => some (some e, c)
  | .ok id _ =>
    let r : Ret :=
      match cb with
      | none => none
      | some r => if (findSelf c id).isSome then r else some .invalidChanId
    match r with
    | some e => some (some e, c)
    | none =>
      let rr := removeSelf c id
      match rr.1 with
      | some e => some (some e, rr.2)
      | none => some (some .chanOpenFailed, rr.2)

/-- Channel type ids (wolfssh/internal.h:520-523); only that they differ matters. -/
def ID_CHANTYPE_SESSION : Nat := 220
def ID_CHANTYPE_TCPIP_FORWARD : Nat := 221
def ID_CHANTYPE_TCPIP_DIRECT : Nat := 222
def ID_CHANTYPE_AUTH_AGENT : Nat := 223

/-- The channel type rows of `NameIdMap` (src/internal.c:3551-3557). -/
def chanTable : Table :=
  [⟨ID_CHANTYPE_SESSION, .other, asc "session"⟩,
   ⟨ID_CHANTYPE_TCPIP_FORWARD, .other, asc "forwarded-tcpip"⟩,
   ⟨ID_CHANTYPE_TCPIP_DIRECT, .other, asc "direct-tcpip"⟩,
   ⟨ID_CHANTYPE_AUTH_AGENT, .other, asc "auth-agent@openssh.com"⟩]

/-- `OPEN_*` reasons (wolfssh/internal.h:1493-1499). -/
def OPEN_ADMINISTRATIVELY_PROHIBITED : Nat := 1
def OPEN_UNKNOWN_CHANNEL_TYPE : Nat := 3
def OPEN_RESOURCE_SHORTAGE : Nat := 4

/-- What `DoChannelOpen` gets from outside: memory, the application's callbacks (outer `none`: not
installed) and whether there is an agent. -/
structure OpenEnv where
  buffer : Option Bytes
  agent : Bool
  openCb : Option Ret
  /-- results of the two calls of `fwdCb`: `WOLFSSH_FWD_LOCAL_SETUP`, `WOLFSSH_FWD_CHANNEL_ID` -/
  fwdCb : Option (Ret × Ret)
  send : SendEnv

/-- The fields of a channel open message (src/internal.c:10957-10976, 10888-10930). -/
structure OpenMsg where
  typeId : Nat
  peerId : Nat
  window : Nat
  maxPacket : Nat
  deriving DecidableEq, Repr

/-- `DoChannelOpenForward` (src/internal.c:10888-10930), the fields themselves are only passed on to
the application. -/
def parseForward (mem : Bytes) (len idx : Nat) : Res Unit :=
  Wolf.Kex.Res.bind (getStringAlloc mem len idx) fun _ b =>
  Wolf.Kex.Res.bind (getUint32 mem len b) fun _ b =>
  Wolf.Kex.Res.bind (getStringAlloc mem len b) fun _ b =>
  Wolf.Kex.Res.bind (getUint32 mem len b) fun _ b => .ok () b

/-- `SendChannelOpenFail` (src/internal.c:19982-20035). -/
def sendOpenFail (c : Conn) (peer reason : Nat) (e : SendEnv) : Ret × Conn :=
  if e.prep ≠ none then (e.prep, c)
  else (e.sent, { c with out := c.out ++ [.openFail peer reason] })

/-- `SendChannelOpenConf` (src/internal.c:19935-19979). -/
def sendOpenConf (c : Conn) (ch : Chan) (e : SendEnv) : Ret × Conn :=
  if e.prep ≠ none then (e.prep, c)
  else (e.sent, { c with out := c.out ++ [.openConf ch.peerId ch.id] })

/-- The type switch of `DoChannelOpen` (src/internal.c:10984-11013): `none` is undefined behaviour,
otherwise success or the failure reason. -/
def openType (c : Conn) (E : OpenEnv) (m : OpenMsg) (mem : Bytes) (len idx : Nat) : Option (Option Nat) :=
  if m.typeId = ID_CHANTYPE_SESSION then
    some (if c.listSz ≥ 1 then some OPEN_ADMINISTRATIVELY_PROHIBITED else none)
  else if m.typeId = ID_CHANTYPE_TCPIP_DIRECT ∨ m.typeId = ID_CHANTYPE_TCPIP_FORWARD then
    match parseForward mem len idx with
    | .ub => none
    | .err _ _ => some (some OPEN_ADMINISTRATIVELY_PROHIBITED)
    | .ok _ _ => some none
  else if m.typeId = ID_CHANTYPE_AUTH_AGENT then
    some (if E.agent then none else some OPEN_ADMINISTRATIVELY_PROHIBITED)
  else some (some OPEN_UNKNOWN_CHANNEL_TYPE)

/-- The decision after `ChannelNew` (src/internal.c:11025-11087): success or the failure reason. -/
def openPolicy (server : Bool) (E : OpenEnv) (typeId : Nat) : Option Nat :=
  if typeId = ID_CHANTYPE_TCPIP_FORWARD ∧ server then some OPEN_ADMINISTRATIVELY_PROHIBITED
  else
    match E.openCb with
    | some (some _) => some OPEN_ADMINISTRATIVELY_PROHIBITED
    | _ =>
      if typeId = ID_CHANTYPE_TCPIP_DIRECT ∨ typeId = ID_CHANTYPE_TCPIP_FORWARD then
        match E.fwdCb with
        | none => some OPEN_ADMINISTRATIVELY_PROHIBITED
        | some (none, none) => none
        | some _ => some OPEN_ADMINISTRATIVELY_PROHIBITED
      else none

/-- `DoChannelOpen` once the common fields are read (src/internal.c:10984-11126). -/
def answerOpen (c : Conn) (E : OpenEnv) (m : OpenMsg) (mem : Bytes) (len idx : Nat) :
    Option (Ret × Conn) :=
  match openType c E m mem len idx with
  | none => none
  | some (some reason) => some (sendOpenFail c m.peerId reason E.send)
  | some none =>
    match channelNew c m.typeId c.ctxWindow c.ctxMaxPacket E.buffer true with
    | none => none
    | some (none, c1) => some (sendOpenFail c1 m.peerId OPEN_RESOURCE_SHORTAGE E.send)
    | some (some ch, c1) =>
      match openPolicy c.server E m.typeId with
      | some reason => some (sendOpenFail c1 m.peerId reason E.send)
      | none =>
        some (sendOpenConf (append c1 (updatePeer ch m.peerId m.window m.maxPacket))
                (updatePeer ch m.peerId m.window m.maxPacket) E.send)

/-- `DoChannelOpen` (src/internal.c:10933-11126). A parse error is answered with a failure to the
peer's channel id as far as it was read (0 if not). -/
def doOpen (c : Conn) (E : OpenEnv) (mem : Bytes) (len idx : Nat) : Option (Ret × Conn) :=
  match getString 32 mem len idx with
  | .ub => none
  | .err _ _ => some (sendOpenFail c 0 OPEN_ADMINISTRATIVELY_PROHIBITED E.send)
  | .ok type b =>
    match getUint32 mem len b with
    | .ub => none
    | .err _ _ => some (sendOpenFail c 0 OPEN_ADMINISTRATIVELY_PROHIBITED E.send)
    | .ok peer b =>
      match parseAdjust mem len b with
      | .ub => none
      | .err _ _ => some (sendOpenFail c peer OPEN_ADMINISTRATIVELY_PROHIBITED E.send)
      | .ok (win, mx) b =>
        answerOpen c E ⟨nameToId chanTable type.dropLast, peer, win, mx⟩ mem len b

/-! ## Calls by the application -/

/-- Moving the unread bytes down (src/ssh.c:3771-3779): the memory afterwards. -/
def compactMem (b : Buf) (used : Nat) : Option Bytes :=
  if used ≠ 0 then (Wolf.Buffer.read b.mem b.idx used).bind (write b.mem 0) else some b.mem

/-- The window is opened, the buffer starts at its unread bytes (src/ssh.c:3790-3796). -/
def openWindow (m : Bytes) (used add : Nat) (ch : Chan) : Chan :=
  { ch with windowSz := add32 ch.windowSz add,
            inBuf := { ch.inBuf with mem := m, length := used, idx := 0 } }

/-- `_UpdateChannelWindow` (src/ssh.c:3760-3803) on the channel at position `i`. -/
def updateWindow (c : Conn) (i : Nat) (e : SendEnv) : Option (Ret × Conn) :=
  match c.chans[i]? with
  | none => some (some .badArgument, c)
  | some ch =>
    if ch.inBuf.length > ch.inBuf.bufferSz / 2 ∨ ch.windowSz = 0 then
      (compactMem ch.inBuf (sub32 ch.inBuf.length ch.inBuf.idx)).map fun m =>
        ((creditWindow c i ch.inBuf.idx e).1,
         modChan (creditWindow c i ch.inBuf.idx e).2 i
           (openWindow m (sub32 ch.inBuf.length ch.inBuf.idx) ch.inBuf.idx))
    else some (none, c)

/-- Bytes leave the input buffer: `inputBuffer->idx += bufSz` (src/ssh.c:3814, 1293). -/
def takeBytes (d : Bytes) (ch : Chan) : Chan :=
  { ch with inBuf := consume ch.inBuf d.length, g := { ch.g with taken := ch.g.taken ++ d } }

/-- Ghost: the bytes were returned to the caller. -/
def noteGave (d : Bytes) (ch : Chan) : Chan := { ch with g := { ch.g with gave := ch.g.gave ++ d } }

/-- Ghost: a read failed after it took bytes. -/
def noteFailed (ch : Chan) : Chan := { ch with g := { ch.g with failedReads := ch.g.failedReads + 1 } }

/-- `n` bytes are copied out, then the window is opened; if that fails its result replaces the count
(src/ssh.c:3813-3820). -/
def readThenUpdate (c : Conn) (i : Nat) (ch : Chan) (n : Nat) (e : SendEnv) :
    Option (Except Err Bytes × Conn) :=
  (Wolf.Buffer.read ch.inBuf.mem ch.inBuf.idx n).bind fun d =>
    (updateWindow (setChan c i (takeBytes d ch)) i e).map fun rc =>
      match rc.1 with
      | none => (.ok d, modChan rc.2 i (noteGave d))
      | some r => (.error r, modChan rc.2 i noteFailed)

/-- The window is opened, then `n` bytes are copied out and consumed (src/ssh.c:1290-1295). The C
copies first; the copy does not depend on the update. -/
def updateThenRead (c : Conn) (ch : Chan) (n : Nat) (e : SendEnv) : Option (Except Err Bytes × Conn) :=
  (Wolf.Buffer.read ch.inBuf.mem ch.inBuf.idx n).bind fun d =>
    (updateWindow c 0 e).map fun rc =>
      match rc.1 with
      | some r => (.error r, rc.2)
      | none => (.ok d, modChan rc.2 0 (fun ch => noteGave d (takeBytes d ch)))

/-- `_ChannelRead` (src/ssh.c:3803-3821) on the channel at position `i`: the bytes returned to the
caller, or an error. -/
def channelRead (c : Conn) (i n : Nat) (e : SendEnv) : Option (Except Err Bytes × Conn) :=
  match c.chans[i]? with
  | none => some (.error .badArgument, c)
  | some ch =>
    if n = 0 then some (.error .badArgument, c)
    else readThenUpdate c i ch (cmin n (sub32 ch.inBuf.length ch.inBuf.idx)) e

/-- `wolfSSH_ChannelIdRead` (src/ssh.c:3886-3904). -/
def channelIdRead (c : Conn) (id n : Nat) (e : SendEnv) : Option (Except Err Bytes × Conn) :=
  match findSelf c id with
  | none => some (.error .invalidChanId, c)
  | some (i, _) => channelRead c i n e

/-- The reading part of `wolfSSH_stream_read` (src/ssh.c:1224-1296). While the buffer is empty the C
receives messages; those are separate steps here, so an empty buffer answers `WS_WANT_READ`. -/
def streamRead (c : Conn) (n : Nat) (e : SendEnv) : Option (Except Err Bytes × Conn) :=
  if n = 0 then some (.error .badArgument, c)
  else
    match c.chans with
    | [] => some (.error .badArgument, c)
    | ch :: _ =>
      if ch.eofRxd then some (.error .eof, c)
      else if c.keying then some (.error .rekeying, c)
      else
        if cmin n (sub32 ch.inBuf.length ch.inBuf.idx) = 0 then some (.error .wantRead, c)
        else updateThenRead c ch (cmin n (sub32 ch.inBuf.length ch.inBuf.idx)) e

/-- Stderr bytes leave the buffer `b` and the window is opened by as many (src/ssh.c:3848-3856). -/
def takeExt (b : Buf) (d : Bytes) (ch : Chan) : Chan :=
  { ch with ext := b, windowSz := add32 ch.windowSz d.length,
            g := { ch.g with gaveExt := ch.g.gaveExt ++ d } }

/-- A drained buffer is shrunk (src/ssh.c:3858-3860). -/
def drained (static : Bytes) (b : Buf) : Option Buf :=
  if b.idx = b.length then shrinkBuffer static b false else some b

/-- The part of `_ChannelReadExt` after the checks (src/ssh.c:3843-3882): the credit's result is only
logged. -/
def readExt (static : Bytes) (c : Conn) (i : Nat) (ch : Chan) (n : Nat) (e : SendEnv) :
    Option (Except Err Bytes × Conn) :=
  (Wolf.Buffer.read ch.ext.mem ch.ext.idx n).bind fun d =>
    if n > 0 then
      (drained static (consume ch.ext n)).map fun b =>
        (.ok d, (creditWindow (setChan c i (takeExt b d ch)) i n e).2)
    else some (.ok d, c)

/-- `_ChannelReadExt` (src/ssh.c:3829-3883) on the channel found by own id
(`wolfSSH_ChannelIdReadExt`, src/ssh.c:3928-3949). `static` is the content of the unused static
buffer. -/
def channelReadExt (static : Bytes) (c : Conn) (id n : Nat) (e : SendEnv) :
    Option (Except Err Bytes × Conn) :=
  match findSelf c id with
  | none => some (.error .invalidChanId, c)
  | some (i, ch) =>
    if n = 0 then some (.error .badArgument, c)
    else if ch.ext.idx > ch.ext.length then some (.error .invalidState, c)
    else readExt static c i ch (cmin n (sub32 ch.ext.length ch.ext.idx)) e

/-- `wolfSSH_ChannelIdSend`, `wolfSSH_ChannelSend` and the `Ext` variants (src/ssh.c:1325-1394,
3972-4037). -/
def channelSend (isExt : Bool) (c : Conn) (id : Nat) (data : Bytes) (flush : Flush) (e : SendEnv) :
    Except Err Nat × Conn :=
  match findSelf c id with
  | none => (.error .invalidChanId, c)
  | some (_, ch) =>
    if ch.openConfirmed = false then (.error .channelNotConf, c)
    else sendData isExt c id data flush e

/-- `wolfSSH_stream_send` (src/ssh.c:1304-1322) and `wolfSSH_extended_data_send`
(1433-1450): no confirmation
check. -/
def streamSend (isExt : Bool) (c : Conn) (data : Bytes) (flush : Flush) (e : SendEnv) :
    Except Err Nat × Conn :=
  match c.chans with
  | [] => (.error .badArgument, c)
  | ch :: _ => if c.keying then (.error .rekeying, c) else sendData isExt c ch.id data flush e

/-- `if (ret == WS_SUCCESS) ret = ...;`. -/
def andThen (a : Ret × Conn) (f : Conn → Ret × Conn) : Ret × Conn :=
  if a.1 = none then f a.2 else a

/-- `wolfSSH_ChannelExit` (src/ssh.c:4040-4061) on the channel with own id `id`. -/
def channelExit (c : Conn) (id : Nat) (e1 e2 : SendEnv) : Ret × Conn :=
  match findSelf c id with
  | none => (some .badArgument, c)
  | some (_, ch) =>
    andThen (sendEof c ch.peerId e1) fun c1 =>
    andThen (sendClose c1 ch.peerId e2) fun c2 =>
    removePeer c2 ch.peerId

/-- `wolfSSH_stream_exit` (src/ssh.c:1397-1419): exit status, end of write (if the client is
OpenSSH), EOF, close on the first channel. -/
def streamExit (c : Conn) (openssh : Bool) (es : Nat → SendEnv) : Ret × Conn :=
  match c.chans with
  | [] => (some .badArgument, c)
  | ch :: _ =>
    andThen (sendRequest c ch.peerId (es 0)) fun c1 =>
    andThen (if openssh then sendRequest c1 ch.peerId (es 1) else (none, c1)) fun c2 =>
    andThen (sendEof c2 ch.peerId (es 2)) fun c3 =>
    sendClose c3 ch.peerId (es 3)

/-- The sending part of `wolfSSH_shutdown` (src/ssh.c:1106-1142); `ww` tells whether `ssh->error` is
`WS_WANT_WRITE` after a failed send. The channel is looked up by the peer's number among this
side's own numbers, as the C does. -/
def shutdown (c : Conn) (ww : Bool) (es : Nat → SendEnv) : Ret × Conn :=
  match c.chans with
  | [] => (some .badArgument, c)
  | ch :: _ =>
    match findSelf c ch.peerId with
    | none => (none, c)
    | some (_, found) =>
      if found.closeTxd then (none, c)
      else
        let go (r : Ret) : Bool := r = none ∨ (r ≠ some .badArgument ∧ ww)
        let r1 := sendEof c ch.peerId (es 0)
        let r2 := if go r1.1 then sendRequest r1.2 ch.peerId (es 1) else r1
        if go r2.1 then sendClose r2.2 ch.peerId (es 2) else r2

/-- `wolfSSH_ChannelFwdNewLocal/Remote` (src/ssh.c:3514-3594): create, send the open request, call
the forwarding callback (`cb`), append. With `keep`, the session and agent channels opened by
`wolfSSH_connect` and `wolfSSH_accept` (src/ssh.c:998-1023, 754-778): no callback, and the channel
stays when the request is queued but not yet written. -/
def openLocal (c : Conn) (keep : Bool) (ctype : Nat) (buffer : Option Bytes) (cb : Ret) (e : SendEnv) :
    Option (Ret × Conn) :=
  match channelNew c ctype c.ctxWindow c.ctxMaxPacket buffer false with
  | none => none
  | some (none, c1) => some (some .memory, c1)
  | some (some ch, c1) =>
    if e.prep ≠ none then some (e.prep, c1)
    else
      let c2 := { c1 with out := c1.out ++ [.openReq ch.id] }
      match e.sent with
      | some r =>
        if keep ∧ (r = .wantWrite ∨ r = .wantRead) then some (some r, append c2 ch)
        else some (some r, c2)
      | none =>
        match (if keep then none else cb) with
        | some r => some (some r, c2)
        | none => some (none, append c2 ch)

/-! ## The session -/

/-- What can happen to the channels of a session. -/
inductive In where
  | rxOpen (E : OpenEnv) (mem : Bytes) (len idx : Nat)
  | rxOpenConf (mem : Bytes) (len idx : Nat) (cb : Ret)
  | rxOpenFail (mem : Bytes) (len idx : Nat) (cb : Option Ret)
  | rxAdjust (mem : Bytes) (len idx : Nat)
  | rxData (mem : Bytes) (len idx : Nat)
  | rxExt (alloc : Nat → Option Bytes) (mem : Bytes) (len idx : Nat) (e : SendEnv)
  | rxEof (mem : Bytes) (len idx : Nat) (e : SendEnv)
  | rxClose (mem : Bytes) (len idx : Nat) (e : SendEnv)
  | openLocal (keep : Bool) (ctype : Nat) (buffer : Option Bytes) (cb : Ret) (e : SendEnv)
  | read (id n : Nat) (e : SendEnv)
  | readExt (static : Bytes) (id n : Nat) (e : SendEnv)
  | streamRead (n : Nat) (e : SendEnv)
  | send (isExt : Bool) (id : Nat) (data : Bytes) (flush : Flush) (e : SendEnv)
  | streamSend (isExt : Bool) (data : Bytes) (flush : Flush) (e : SendEnv)
  | exit (id : Nat) (e1 e2 : SendEnv)
  | streamExit (openssh : Bool) (es : Nat → SendEnv)
  | shutdown (ww : Bool) (es : Nat → SendEnv)
  | free (id : Nat)
  /-- a key exchange starts (this side sent or got KEXINIT) -/
  | rekey
  /-- it ends; `SendNewKeys`/`DoNewKeys` then send the parked credit (src/internal.c:16147, 7713) -/
  | keyed (es : Nat → SendEnv)

/-- One step; `none` is undefined behaviour. -/
def step (c : Conn) : In → Option Conn
  | .rxOpen E mem len idx => (doOpen c E mem len idx).map (·.2)
  | .rxOpenConf mem len idx cb => (doOpenConf c mem len idx cb).map (·.2)
  | .rxOpenFail mem len idx cb => (doOpenFail c mem len idx cb).map (·.2)
  | .rxAdjust mem len idx => (doWindowAdjust c mem len idx).map (·.2)
  | .rxData mem len idx => (doData c mem len idx).map (·.2)
  | .rxExt alloc mem len idx e => (doExtData alloc c mem len idx e).map (·.2)
  | .rxEof mem len idx e => (doEof c mem len idx e).map (·.2)
  | .rxClose mem len idx e => (doClose c mem len idx e).map (·.2)
  | .openLocal keep ctype buffer cb e => (openLocal c keep ctype buffer cb e).map (·.2)
  | .read id n e => (channelIdRead c id n e).map (·.2)
  | .readExt static id n e => (channelReadExt static c id n e).map (·.2)
  | .streamRead n e => (streamRead c n e).map (·.2)
  | .send isExt id data flush e => some (channelSend isExt c id data flush e).2
  | .streamSend isExt data flush e => some (streamSend isExt c data flush e).2
  | .exit id e1 e2 => some (channelExit c id e1 e2).2
  | .streamExit o es => some (streamExit c o es).2
  | .shutdown ww es => some (shutdown c ww es).2
  | .free id => some (removeSelf c id).2
  | .rekey => some (startKeying c)
  | .keyed es => some (sendPendingWindowAdjust { c with keying := false } es).2

end Wolf.Channel
