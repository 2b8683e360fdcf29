import Verif.Model.Packet
/-!
# The binary packet protocol, receiving side, and the version exchange
(src/internal.c:4154-4258, 4327-4385, 12109-12400, 12488-12533, 12645-12722, 12774-12955,
12959-13056)

The transport is the stream of bytes still to come and a list of answers of the receive callback;
it never delivers more than asked for. When the list ends it has nothing more for now
(`WS_WANT_READ`). The message handlers, `IsMessageAllowed` and the highwater check are parameters
working on a state `A` of their own; of the packet layer a handler can change the keys of the
peer's direction (`DoNewKeys`). A log records, for the theorems, each integrity check passed and
each message handed over. `ssh->error` is the error a step returns; `rxCount` is in
`Model/Packet`'s `HwOp`.
-/

namespace Wolf.Receive
open Wolf Wolf.Buffer Wolf.Wire Wolf.Packet

/-- What the transport's receive callback answers (wolfssh/error.h:154-162). `got n`: up to `n`
bytes, `intr`: `WS_CBIO_ERR_ISR`, `closed`: reset, closed, timeout, general error. -/
inductive IoRecv where
  | got (n : Nat)
  | wantRead | intr | closed | other
  deriving DecidableEq, Repr

/-- The reading loop of `GetInputData` (src/internal.c:4354-4383) with `ReceiveData`
(src/internal.c:4154-4193) for `size > 0` bytes: error, answers left, stream left, buffer. A write
outside the buffer is `none`. -/
def recvLoop : List IoRecv → Bytes → Buf → Nat → Option (Option Err × List IoRecv × Bytes × Buf)
  | [], net, b, _ => some (some .wantRead, [], net, b)
  | .intr :: io, net, b, size => recvLoop io net b size
  | .wantRead :: io, net, b, _ => some (some .wantRead, io, net, b)
  | .closed :: io, net, b, _ => some (some .socketError, io, net, b)
  | .other :: io, net, b, _ => some (some .socketError, io, net, b)
  | .got n :: io, net, b, size =>
    let got := net.take (min n size)
    match Buffer.write b.mem b.length got with
    | none => none
    | some m =>
      let b := { b with mem := m, length := add32 b.length got.length }
      if size - got.length = 0 then some (none, io, net.drop got.length, b)
      else recvLoop io (net.drop got.length) b (size - got.length)

/-- `GetInputData` (src/internal.c:4327-4385). -/
def getInputData (alloc : Nat → Option Bytes) (io : List IoRecv) (net : Bytes) (b : Buf) (size : Nat) :
    Option (Option Err × List IoRecv × Bytes × Buf) :=
  let have_ := sub32 b.length b.idx
  if have_ ≥ size then some (none, io, net, b)
  else
    let size := sub32 size have_
    match growBuffer alloc b size with
    | none => none
    | some (some _, b) => some (some .memory, io, net, b)
    | some (none, b) => recvLoop io net b size

/-- `Decrypt` (src/internal.c:12488-12533), without the counter. -/
def decrypt (P : Prims) (id : Enc) (c : Option P.State) (input : Bytes) :
    Option Err × Option P.State × Bytes :=
  if input.length = 0 then (some .badArgument, c, input)
  else
    match id, c with
    | .none, _ => (none, c, input)
    | .cbc k, some st =>
      if input.length % 16 ≠ 0 then (some .decryptE, c, input)
      else
        match P.dec (.cbc k) st input with
        | none => (some .decryptE, c, input)
        | some (x, st') => (none, some st', x)
    | .ctr k, some st =>
      if input.length % 16 ≠ 0 then (some .decryptE, c, input)
      else
        match P.dec (.ctr k) st input with
        | none => (some .decryptE, c, input)
        | some (x, st') => (none, some st', x)
    | .cbc _, none | .ctr _, none => (some .decryptE, c, input)
    | .gcm _, _ | .unknown, _ => (some .invalidAlgoId, c, input)

/-- `VerifyMac` (src/internal.c:12645-12722): `mac` are the `peerMacSz` bytes compared. -/
def verifyMac (P : Prims) (s : Suite) (seq : Nat) (input mac : Bytes) : Option Err :=
  match s.macId with
  | .none => none
  | .unknown => some .invalidAlgoId
  | m =>
    match P.hmac m s.macKey (c32toa seq ++ input) with
    | none => some .cryptoFailed
    | some d => if d.take s.macSz = mac then none else some .verifyMac

/-- `DecryptAead` (src/internal.c:12774-12808), without counter and nonce: error and plain text. -/
def decryptAead (P : Prims) (s : Suite) (c : Option P.State) (input tag aad : Bytes) :
    Option Err × Bytes :=
  match s.encId, c with
  | .gcm k, some st =>
    match P.gcmOpen (.gcm k) st s.iv input tag aad with
    | none => (some .cryptoFailed, input)
    | some x => (none, x)
  | .gcm _, none => (some .cryptoFailed, input)
  | _, _ => (some .invalidAlgoId, input)

/-- `processReplyState` (wolfssh/internal.h). -/
inductive Phase where
  | init | packetLength | packetFinish | packet
  deriving DecidableEq, Repr

/-- The fields of `WOLFSSH` the receiving packet layer uses (wolfssh/internal.h:985-1100). -/
structure Rcv (P : Prims) where
  inp : Buf
  peer : Suite
  peerCipher : Option P.State
  peerSeq : Nat
  curSz : Nat
  phase : Phase

/-- What the log records. -/
inductive Event where
  /-- `VerifyMac` passed for a packet under a suite and sequence number, against `mac`. -/
  | verified (s : Suite) (seq : Nat) (packet mac : Bytes)
  /-- `DecryptAead` passed: associated data and plain text form `packet`. -/
  | opened (s : Suite) (seq : Nat) (packet ct tag : Bytes)
  /-- A message was handed to its handler. -/
  | acted (s : Suite) (seq : Nat) (msg : Byte) (payload : Bytes)
  /-- The packet was done with, and `DoPacket` returned `r`. -/
  | finished (r : Option Err)
  deriving DecidableEq, Repr

/-- The layers above: `IsMessageAllowed`, the handlers of `DoPacket` (result, `payloadIdx`, and for
`DoNewKeys` the keys installed), `HighwaterCheck(RECEIVE)` (src/internal.c:12392). -/
structure Handlers (P : Prims) (A : Type) where
  allowed : A → Byte → Bool
  run : A → Byte → Bytes → Option Err × Nat × A × Option (Suite × Option P.State)
  highwater : A → Option Err × A

/-- A receiving connection: packet layer, upper layers, transport, log. -/
structure Conn (P : Prims) (A : Type) where
  rcv : Rcv P
  app : A
  io : List IoRecv
  net : Bytes
  log : List Event

variable {P : Prims} {A : Type}

/-- `MAX_PACKET_SZ` (wolfssh/internal.h). -/
def MAX_PACKET_SZ : Nat := 35000

/-- The end of `DoPacket` and of `DoReceive` for a packet that is done with
(src/internal.c:12367-12398, 12940-12948): sequence number, highwater check, input buffer emptied.
`ret` is the handler's result. -/
def finishPacket (H : Handlers P A) (x : Conn P A) (ret : Option Err) : Option (Option Err × Conn P A) :=
  let hw := H.highwater x.app
  match shrinkBuffer [] x.rcv.inp true with
  | none => none
  | some b =>
    let r := if ret = none then hw.1 else ret
    some (r, { x with
      app := hw.2
      log := x.log ++ [.finished r]
      rcv := { x.rcv with inp := b, peerSeq := add32 x.rcv.peerSeq 1, phase := .init } })

/-- `DoPacket` (src/internal.c:12109-12400) and case `PROCESS_PACKET` of `DoReceive`
(src/internal.c:12926-12955). -/
def rxPacket (H : Handlers P A) (x : Conn P A) : Option (Option Err × Conn P A) :=
  let b := x.rcv.inp
  let idx := add32 b.idx 4
  match Buffer.read b.mem idx 1 with
  | none | some [] => none
  | some (pad :: _) =>
    let padSz := pad.toNat
    if padSz < 4 then some (some .bufferE, x)
    else if 1 + padSz + 1 > x.rcv.curSz then some (some .overflowE, x)
    else
      let payloadSz := x.rcv.curSz - 1 - padSz - 1
      match Buffer.read b.mem (idx + 1) 1 with
      | none | some [] => none
      | some (msg :: _) =>
        let idx := idx + 2
        if b.bufferSz < add32 payloadSz idx ∨ add32 payloadSz idx < payloadSz then some (some .overflowE, x)
        else if H.allowed x.app msg = false then some (some .msgNotAllowed, x)
        else
          match Buffer.read b.mem idx payloadSz with
          | none => none
          | some payload =>
            let r := H.run x.app msg payload
            let x := { x with
              app := r.2.2.1
              log := x.log ++ [.acted x.rcv.peer x.rcv.peerSeq msg payload]
              rcv := match r.2.2.2 with
                | none => x.rcv
                | some (s, c) => { x.rcv with peer := s, peerCipher := c } }
            if r.1 = some .authPending then some (r.1, x)
            else
              finishPacket H x
                (if payloadSz > 0 ∧ add32 (add32 idx r.2.1) padSz > b.length then some .bufferE else r.1)

/-- Case `PROCESS_PACKET_FINISH` of `DoReceive` (src/internal.c:12861-12924), and on. -/
def rxFinish (H : Handlers P A) (alloc : Nat → Option Bytes) (x : Conn P A) : Option (Option Err × Conn P A) :=
  let sz := add32 4 x.rcv.curSz
  match getInputData alloc x.io x.net x.rcv.inp (add32 sz x.rcv.peer.macSz) with
  | none => none
  | some (some e, io, net, b) => some (some e, { x with io, net, rcv := { x.rcv with inp := b } })
  | some (none, io, net, b) =>
    let x := { x with io, net, rcv := { x.rcv with inp := b } }
    if x.rcv.peer.aead = false then
      let blk := x.rcv.peer.blockSz
      let rest := if sz > blk then sz - blk else 0
      match Buffer.read b.mem (b.idx + blk) rest with
      | none => none
      | some ct =>
        let r := if rest > 0 then decrypt P x.rcv.peer.encId x.rcv.peerCipher ct else (none, x.rcv.peerCipher, ct)
        match Buffer.write b.mem (b.idx + blk) r.2.2 with
        | none => none
        | some m =>
          let x := { x with rcv := { x.rcv with inp := { b with mem := m }, peerCipher := r.2.1 } }
          match Buffer.read m b.idx sz, Buffer.read m (b.idx + sz) x.rcv.peer.macSz with
          | some packet, some mac =>
            match r.1, verifyMac P x.rcv.peer x.rcv.peerSeq packet mac with
            | some e, _ => some (some e, x)
            | none, some e => some (some e, x)
            | none, none =>
              rxPacket H { x with
                rcv := { x.rcv with phase := .packet }
                log := x.log ++ [.verified x.rcv.peer x.rcv.peerSeq packet mac] }
          | _, _ => none
    else if x.rcv.curSz = 0 then some (some .badArgument, x)
    else
      match Buffer.read b.mem b.idx 4, Buffer.read b.mem (b.idx + 4) x.rcv.curSz,
          Buffer.read b.mem (b.idx + sz) x.rcv.peer.macSz with
      | some aad, some ct, some tag =>
        let r := decryptAead P x.rcv.peer x.rcv.peerCipher ct tag aad
        match Buffer.write b.mem (b.idx + 4) r.2 with
        | none => none
        | some m =>
          let suite := { x.rcv.peer with iv := aeadIncrementExpIv x.rcv.peer.iv }
          let y := { x with rcv := { x.rcv with inp := { b with mem := m }, peer := suite } }
          match r.1 with
          | some e => some (some e, y)
          | none =>
            rxPacket H { y with
              rcv := { y.rcv with phase := .packet }
              log := y.log ++ [.opened x.rcv.peer x.rcv.peerSeq (aad ++ r.2) ct tag] }
      | _, _, _ => none

/-- Case `PROCESS_PACKET_LENGTH` of `DoReceive` (src/internal.c:12843-12859), and on. -/
def rxLength (H : Handlers P A) (alloc : Nat → Option Bytes) (x : Conn P A) : Option (Option Err × Conn P A) :=
  let b := x.rcv.inp
  if add32 b.idx 4 > b.bufferSz then some (some .overflowE, x)
  else
    match Buffer.read b.mem b.idx 4 with
    | some [a0, a1, a2, a3] =>
      let x := { x with rcv := { x.rcv with curSz := ato32 a0 a1 a2 a3 } }
      if x.rcv.curSz > MAX_PACKET_SZ - x.rcv.peer.macSz - 4 then some (some .overflowE, x)
      else rxFinish H alloc { x with rcv := { x.rcv with phase := .packetFinish } }
    | _ => none

/-- Case `PROCESS_INIT` of `DoReceive` (src/internal.c:12822-12841), and on. -/
def rxInit (H : Handlers P A) (alloc : Nat → Option Bytes) (x : Conn P A) : Option (Option Err × Conn P A) :=
  match getInputData alloc x.io x.net x.rcv.inp x.rcv.peer.blockSz with
  | none => none
  | some (some e, io, net, b) => some (some e, { x with io, net, rcv := { x.rcv with inp := b } })
  | some (none, io, net, b) =>
    let x := { x with io, net, rcv := { x.rcv with inp := b, phase := .packetLength } }
    if x.rcv.peer.aead = false then
      match Buffer.read b.mem b.idx x.rcv.peer.blockSz with
      | none => none
      | some ct =>
        let r := decrypt P x.rcv.peer.encId x.rcv.peerCipher ct
        match Buffer.write b.mem b.idx r.2.2 with
        | none => none
        | some m =>
          let x := { x with rcv := { x.rcv with inp := { b with mem := m }, peerCipher := r.2.1 } }
          match r.1 with
          | some e => some (some e, x)
          | none => rxLength H alloc x
    else rxLength H alloc x

/-- `DoReceive` (src/internal.c:12811-12955). The result is `ssh->error`; the function returns it
when it is one of `WS_CHAN_RXD`, `WS_EXTDATA`, `WS_CHANNEL_CLOSED`, `WS_WANT_WRITE`, `WS_REKEYING`,
`WS_WANT_READ` from a handler, and `WS_FATAL_ERROR` for any other error. -/
def doReceive (H : Handlers P A) (alloc : Nat → Option Bytes) (x : Conn P A) : Option (Option Err × Conn P A) :=
  match x.rcv.phase with
  | .init => rxInit H alloc x
  | .packetLength => rxLength H alloc x
  | .packetFinish => rxFinish H alloc x
  | .packet => rxPacket H x

/-- `wolfSSH_accept` and `wolfSSH_connect` after they flushed pending output
(src/ssh.c:590-601, 846-857): a packet held back (`WS_AUTH_PENDING`) is dropped. -/
def dropHeld (x : Conn P A) : Option (Conn P A) :=
  if x.rcv.phase = .packet then
    (shrinkBuffer [] x.rcv.inp true).map fun b => { x with rcv := { x.rcv with inp := b, phase := .init } }
  else some x

/-- What drives the receiving side: a call of `DoReceive` with the allocator and the transport's
answers of the moment, or the flush of `wolfSSH_accept`. -/
inductive RxStep where
  | receive (alloc : Nat → Option Bytes) (io : List IoRecv)
  | flushed

/-- One of them. -/
def rxStep (H : Handlers P A) (x : Conn P A) : RxStep → Option (Option Err × Conn P A)
  | .receive alloc io => doReceive H alloc { x with io := io }
  | .flushed => (dropHeld x).map fun x => (none, x)

/-- A history, whatever each call returned. -/
def rxRun (H : Handlers P A) (x : Conn P A) : List RxStep → Option (List (Option Err) × Conn P A)
  | [] => some ([], x)
  | a :: as =>
    match rxStep H x a with
    | none => none
    | some (r, x) =>
      match rxRun H x as with
      | none => none
      | some (rs, x) => some (r :: rs, x)

/-! ## The version exchange -/

/-- `WSTRNSTR(buf, "\n", n)` on exactly `n` bytes (src/port.c:840-856): the search ends at a NUL. -/
def findLf : Bytes → Option Nat
  | [] => none
  | b :: bs => if b = 0 then none else if b = 10 then some 0 else (findLf bs).map (· + 1)

/-- `WOLFSSH_PROTOID_LIMIT`, `WOLFSSH_MAX_BANNER_LINES` (wolfssh/internal.h:702-704). -/
def PROTOID_LIMIT : Nat := 255

/-- See `PROTOID_LIMIT`. -/
def MAX_BANNER_LINES : Nat := 10

/-- The loop of `GetInputLine` (src/internal.c:4217-4257): on success the offset of the
terminator. -/
def lineLoop (alloc : Nat → Option Bytes) :
    List IoRecv → Bytes → Buf → Option (Except Err Nat × List IoRecv × Bytes × Buf)
  | io, net, b =>
    match findLf (b.mem.take b.length) with
    | some i =>
      some (.ok (if i > 0 ∧ b.mem[i - 1]? = some 13 then i - 1 else i), io, net, b)
    | none =>
      if b.length ≥ PROTOID_LIMIT then some (.error .versionE, io, net, b)
      else
        match growBuffer alloc b (PROTOID_LIMIT - b.length) with
        | none => none
        | some (some _, b) => some (.error .memory, io, net, b)
        | some (none, b) =>
          match io with
          | [] => some (.error .wantRead, [], net, b)
          | .intr :: io => lineLoop alloc io net b
          | .wantRead :: io => some (.error .wantRead, io, net, b)
          | .closed :: io | .other :: io => some (.error .socketError, io, net, b)
          | .got n :: io =>
            let got := net.take (min n (PROTOID_LIMIT - b.length))
            if got.length = 0 then some (.error .socketError, io, net, b)
            else
              match Buffer.write b.mem b.length got with
              | none => none
              | some m =>
                lineLoop alloc io (net.drop got.length) { b with mem := m, length := add32 b.length got.length }

/-- `GetInputLine` (src/internal.c:4203-4258). -/
def getInputLine (alloc : Nat → Option Bytes) (io : List IoRecv) (net : Bytes) (b : Buf) :
    Option (Except Err Nat × List IoRecv × Bytes × Buf) :=
  match growBuffer alloc b 0 with
  | none => none
  | some (some _, b) => some (.error .memory, io, net, b)
  | some (none, b) => lineLoop alloc io net b

/-- The state of the version exchange: side, `handshake->bannerLines`, `peerProtoId`, whether
`CLIENT_VERSION_DONE` / `SERVER_VERSION_DONE` was reached, input buffer, transport. -/
structure Ver where
  client : Bool
  bannerLines : Nat
  protoId : Option Bytes
  done : Bool
  inp : Buf
  io : List IoRecv
  net : Bytes
  deriving DecidableEq, Repr

/-- `DoProtoId` (src/internal.c:12959-13056). `alloc2` is the memory for `peerProtoId`, `static` the
content of the static buffer. `fuel` bounds the banner lines, see `doProtoId`. -/
def protoLoop (alloc : Nat → Option Bytes) (alloc2 : Bool) (static : Bytes) :
    Nat → Ver → Option (Option Err × Ver)
  | 0, v => some (some .versionE, v)
  | fuel + 1, v =>
    match getInputLine alloc v.io v.net v.inp with
    | none => none
    | some (.error e, io, net, b) => some (some e, { v with io, net, inp := b })
    | some (.ok eol, io, net, b) =>
      let v := { v with io, net, inp := b }
      let eolSz := if b.mem[eol]? = some 13 then 2 else 1
      if b.length ≥ 4 ∧ b.mem.take 4 = [83, 83, 72, 45] then
        if b.length ≥ 8 ∧ b.mem.take 8 = [83, 83, 72, 45, 50, 46, 48, 45] then
          match Buffer.write b.mem eol [0] with
          | none => none
          | some m =>
            let id := m.takeWhile (· ≠ 0)
            if id.length = m.length then none
            else
              let idx := add32 b.idx (add32 id.length eolSz)
              match shrinkBuffer static { b with mem := m, idx := idx } false with
              | none => none
              | some b' =>
                if alloc2 then some (none, { v with done := true, protoId := some (c32toa id.length ++ id), inp := b' })
                else some (some .memory, { v with done := true, inp := b' })
        else some (some .versionE, v)
      else if v.client = false then some (some .versionE, v)
      else
        let v := { v with bannerLines := v.bannerLines + 1 }
        if v.bannerLines > MAX_BANNER_LINES then some (some .versionE, v)
        else protoLoop alloc alloc2 static fuel { v with inp := { b with idx := add32 b.idx (add32 eol eolSz) } }

/-- `DoProtoId` (src/internal.c:12959-13056): the loop goes round at most once more than banner
lines are allowed. -/
def doProtoId (alloc : Nat → Option Bytes) (alloc2 : Bool) (static : Bytes) (v : Ver) :
    Option (Option Err × Ver) :=
  protoLoop alloc alloc2 static (MAX_BANNER_LINES + 1) v

/-- The loops around `DoProtoId` in `wolfSSH_accept` and `wolfSSH_connect` (src/ssh.c:620-628,
876-883): called until `CLIENT_VERSION_DONE` / `SERVER_VERSION_DONE` is reached, also after an error
when the application calls again. `some (none, v)` without a call once it is. -/
def versionStep (alloc : Nat → Option Bytes) (alloc2 : Bool) (static : Bytes) (io : List IoRecv) (v : Ver) :
    Option (Option Err × Ver) :=
  if v.done then some (none, v) else doProtoId alloc alloc2 static { v with io := io }

end Wolf.Receive
