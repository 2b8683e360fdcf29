import Verif.Model.Buffer
import Verif.Model.Wire
/-!
# The binary packet protocol, sending side
(src/internal.c:581-618, 4261-4324, 4833-4885, 5153-5255, 12440-12486, 12536-12643, 12724-12773,
13058-13231)

One record `Ssh` holds the fields of `WOLFSSH` the sending packet layer uses. The
cryptographic primitives of wolfCrypt are a parameter `Prims`: nothing is assumed about them here.
`ssh->error`, `connReset`, `isClosed` and `plainSz` are left out, they do not influence these
functions. A failing primitive leaves the bytes it was to overwrite as they were.
-/

namespace Wolf.Packet
open Wolf Wolf.Buffer Wolf.Wire

/-- AES key sizes. -/
inductive KeyLen where
  | k128 | k192 | k256
  deriving DecidableEq, Repr

/-- Cipher identifiers (`ID_NONE`, `ID_AES*_*`, wolfssh/internal.h:395-450); `unknown` is any
other value. -/
inductive Enc where
  | none
  | cbc (k : KeyLen)
  | ctr (k : KeyLen)
  | gcm (k : KeyLen)
  | unknown
  deriving DecidableEq, Repr

/-- MAC identifiers (`ID_NONE`, `ID_HMAC_*`); `unknown` is any other value. -/
inductive Mac where
  | none | sha1 | sha1_96 | sha256 | sha512 | unknown
  deriving DecidableEq, Repr

/-- `BlockSzForId` (src/internal.c:4833-4861). -/
def blockSzForId : Enc → Nat
  | .none => 8
  | .cbc _ | .ctr _ | .gcm _ => 16
  | .unknown => 0

/-- `MacSzForId` (src/internal.c:4864-4886). -/
def macSzForId : Mac → Nat
  | .sha1 => 20
  | .sha1_96 => 12
  | .sha256 => 32
  | .sha512 => 64
  | .none | .unknown => 0

/-- `KeySzForId` (src/internal.c:4889-4933) for ciphers. -/
def encKeySzForId : Enc → Nat
  | .cbc .k128 | .ctr .k128 | .gcm .k128 => 16
  | .cbc .k192 | .ctr .k192 | .gcm .k192 => 24
  | .cbc .k256 | .ctr .k256 | .gcm .k256 => 32
  | .none | .unknown => 0

/-- `KeySzForId` (src/internal.c:4889-4933) for MACs. -/
def macKeySzForId : Mac → Nat
  | .sha1 | .sha1_96 => 20
  | .sha256 => 32
  | .sha512 => 64
  | .none | .unknown => 0

/-- `AeadModeForId` (src/internal.c:5153-5164). -/
def aeadModeForId : Enc → Bool
  | .gcm _ => true
  | _ => false

/-- The algorithms and keys of one direction (`encryptId`, `macId`, `aeadMode`, `blockSz`, `macSz`
and `Keys`, wolfssh/internal.h). `iv` has `ivSz` bytes, `encKey` has `encKeySz`, `macKey` has
`macKeySz`. -/
structure Suite where
  encId : Enc
  macId : Mac
  aead : Bool
  blockSz : Nat
  macSz : Nat
  iv : Bytes
  encKey : Bytes
  macKey : Bytes
  deriving DecidableEq, Repr

/-- What `SshInit` installs (src/internal.c:1553-1680, through `HandshakeInfoNew` 622-645): no
cipher, no MAC, blocks of 8. -/
def Suite.initial : Suite := ⟨.none, .none, false, 8, 0, [], [], []⟩

/-- `AEAD_NONCE_SZ` (wolfssh/internal.h). -/
def AEAD_NONCE_SZ : Nat := 12

/-- `SetLocalAlgoIds` / `SetPeerAlgoIds` (src/internal.c:5210-5255): sizes follow from the
identifiers. `iv`, `encKey`, `macKey` are what `GenerateKeys` later stores, of the sizes
`keySizes`. -/
def setAlgoIds (encId : Enc) (aead : Bool) (macId : Mac) (iv encKey macKey : Bytes) : Suite :=
  let blk := blockSzForId encId
  if aead = false then ⟨encId, macId, aead, blk, macSzForId macId, iv, encKey, macKey⟩
  else ⟨encId, .none, aead, blk, blk, iv, encKey, macKey⟩

/-- The key sizes of `SetLocalAlgoIds` / `SetPeerAlgoIds` (src/internal.c:5210-5255): `ivSz`,
`encKeySz`, `macKeySz`. -/
def keySizes (encId : Enc) (aead : Bool) (macId : Mac) : Nat × Nat × Nat :=
  if aead = false then (blockSzForId encId, encKeySzForId encId, macKeySzForId macId)
  else (AEAD_NONCE_SZ, encKeySzForId encId, 0)

/-- The wolfCrypt primitives (`wc_AesSetKey`, `wc_AesCbcEncrypt`, `wc_AesCtrEncrypt`,
`wc_AesCbcDecrypt`, `wc_AesGcmEncrypt`, `wc_AesGcmDecrypt`, `wc_Hmac*`). `State` is an `Aes`
structure. Not part of the repository; `none` is an error return. -/
structure Prims where
  State : Type
  setKey : Enc → (isEnc : Bool) → (iv key : Bytes) → Option State
  enc : Enc → State → Bytes → Option (Bytes × State)
  dec : Enc → State → Bytes → Option (Bytes × State)
  hmac : Mac → (key data : Bytes) → Option Bytes
  gcmSeal : Enc → State → (iv input aad : Bytes) → (tagSz : Nat) → Option (Bytes × Bytes)
  gcmOpen : Enc → State → (iv input tag aad : Bytes) → Option Bytes

/-- Counters, limits and flags of `HighwaterCheck` (wolfssh/internal.h:990-1003). -/
structure Hw where
  mark : Nat
  msgMark : Nat
  flag : Bool
  msgFlag : Bool
  txCount : Nat
  rxCount : Nat
  txMsgCount : Nat
  rxMsgCount : Nat
  deriving DecidableEq, Repr

/-- `HighwaterCheck` (src/internal.c:581-618): whether the callback is called, and the new flags. -/
def highwaterCheck (h : Hw) : Bool × Hw :=
  let f1 := h.flag = false ∧ h.mark ≠ 0 ∧ (h.txCount ≥ h.mark ∨ h.rxCount ≥ h.mark)
  let h1 := if f1 then { h with flag := true } else h
  let f2 := h1.msgFlag = false ∧ h1.msgMark ≠ 0 ∧
    (h1.txMsgCount ≥ h1.msgMark ∨ h1.rxMsgCount ≥ h1.msgMark)
  let h2 := if f2 then { h1 with msgFlag := true } else h1
  (decide (f1 ∨ f2), h2)

/-- Everything that touches these counters, limits and flags. -/
inductive HwOp where
  /-- `Encrypt`, `EncryptAead` (src/internal.c:12482, 12769). -/
  | encrypted (n : Nat)
  /-- `BundlePacket` (src/internal.c:13214). -/
  | bundled
  /-- `Decrypt`, `DecryptAead` (src/internal.c:12530, 12804). -/
  | decrypted (n : Nat)
  /-- `DoPacket` (src/internal.c:12379). -/
  | consumed
  /-- `wolfSSH_SendPacket`, `DoPacket` (src/internal.c:4318, 12392). -/
  | check
  /-- `SendNewKeys` (src/internal.c:16187-16188). -/
  | sentNewKeys
  /-- `DoNewKeys` (src/internal.c:7746-7749). -/
  | gotNewKeys
  /-- `wolfSSH_SetHighwater` (src/ssh.c:245-256). -/
  | setMark (n : Nat)
  /-- `wolfSSH_SetMsgHighwater` (src/ssh.c:279-285). -/
  | setMsgMark (n : Nat)
  deriving DecidableEq, Repr

/-- One of them. -/
def hwStep (h : Hw) : HwOp → Hw
  | .encrypted n => { h with txCount := add32 h.txCount n }
  | .bundled => { h with txMsgCount := add32 h.txMsgCount 1 }
  | .decrypted n => { h with rxCount := add32 h.rxCount n }
  | .consumed => { h with rxMsgCount := add32 h.rxMsgCount 1 }
  | .check => (highwaterCheck h).2
  | .sentNewKeys => { h with txCount := 0, txMsgCount := 0 }
  | .gotNewKeys => { h with rxCount := 0, rxMsgCount := 0, flag := false, msgFlag := false }
  | .setMark n => { h with mark := n }
  | .setMsgMark n => { h with msgMark := n }

/-- A history of them. -/
def hwRun (h : Hw) (ops : List HwOp) : Hw := ops.foldl hwStep h

/-- The fields of `WOLFSSH` the sending packet layer uses (wolfssh/internal.h:985-1100). -/
structure Ssh (P : Prims) where
  out : Buf
  startIdx : Nat
  suite : Suite
  cipher : Option P.State
  seq : Nat
  hw : Hw

variable {P : Prims}

/-- `AeadIncrementExpIv` (src/internal.c:12724-12737): bytes 4..11 of the nonce as a big-endian
counter, least significant byte first. -/
def aeadIncrementExpIv (iv : Bytes) : Bytes :=
  let step := fun (b : Byte) (p : Bytes × Nat) =>
    let sum := b.toNat + p.2
    (UInt8.ofNat sum :: p.1, (sum >>> 8) &&& 1)
  iv.take 4 ++ (((iv.drop 4).take 8).foldr step ([], 1)).1 ++ iv.drop 12

/-- `PreparePacket` (src/internal.c:13084-13114). -/
def preparePacket (alloc : Nat → Option Bytes) (s : Ssh P) (payloadSz : Nat) :
    Option (Option Err × Ssh P) :=
  if s.out.length < s.out.idx then some (some .overflowE, s)
  else
    let paddingSz := s.suite.blockSz * 2 % 256
    let packetSz := add32 (add32 1 payloadSz) paddingSz
    let outputSz := add32 (add32 4 packetSz) s.suite.macSz
    match growBuffer alloc s.out outputSz with
    | none => none
    | some (some e, b) => some (some e, { s with out := b })
    | some (none, b) =>
      some (none, { s with out := { b with length := add32 b.length 5 }, startIdx := b.length })

/-- The senders between `PreparePacket` and `BundlePacket`: the payload is written at
`outputBuffer.buffer + outputBuffer.length` and `length` moves behind it, e.g.
src/internal.c:20334-20347. A payload that does not fit is a write outside the buffer. -/
def putPayload (s : Ssh P) (payload : Bytes) : Option (Ssh P) :=
  match write s.out.mem s.out.length payload with
  | none => none
  | some m => some { s with out := { s.out with mem := m, length := add32 s.out.length payload.length } }

/-- `CreateMac` (src/internal.c:12536-12643): the MAC bytes written, over the sequence number and
the unencrypted packet. -/
def createMac (P : Prims) (s : Suite) (seq : Nat) (input : Bytes) : Option Err × Bytes :=
  match s.macId with
  | .none => (none, [])
  | .unknown => (some .fatal, [])
  | m =>
    match P.hmac m s.macKey (c32toa seq ++ input) with
    | none => (some .cryptoFailed, [])
    | some d => (none, d.take (macSzForId m))

/-- `Encrypt` (src/internal.c:12440-12485), without the counter. `none` in the last component
stands for bytes left as they were. -/
def encrypt (P : Prims) (id : Enc) (c : Option P.State) (input : Bytes) :
    Option Err × Option P.State × Bytes :=
  if input.length = 0 then (some .badArgument, c, input)
  else
    match id, c with
    | .none, _ => (none, c, input)
    | .cbc k, some st =>
      if input.length % 16 ≠ 0 then (some .encryptE, c, input)
      else
        match P.enc (.cbc k) st input with
        | none => (some .encryptE, c, input)
        | some (ct, st') => (none, some st', ct)
    | .ctr k, some st =>
      if input.length % 16 ≠ 0 then (some .encryptE, c, input)
      else
        match P.enc (.ctr k) st input with
        | none => (some .encryptE, c, input)
        | some (ct, st') => (none, some st', ct)
    | .cbc _, none | .ctr _, none => (some .encryptE, c, input)
    | .gcm _, _ | .unknown, _ => (some .invalidAlgoId, c, input)

/-- `EncryptAead` (src/internal.c:12740-12772), without the counter and the nonce: error, cipher
text, tag. -/
def encryptAead (P : Prims) (s : Suite) (c : Option P.State) (input aad : Bytes) :
    Option Err × Bytes × Bytes :=
  match s.encId, c with
  | .gcm k, some st =>
    match P.gcmSeal (.gcm k) st s.iv input aad s.macSz with
    | none => (some .cryptoFailed, input, [])
    | some (ct, tag) => (none, ct, tag)
  | .gcm _, none => (some .cryptoFailed, input, [])
  | _, _ => (some .invalidAlgoId, input, [])

/-- The padding size computed by `BundlePacket` (src/internal.c:13138-13144); `none` is a division
by zero. `paddingSz` is a `byte`. -/
def paddingSz (blockSz : Nat) (aead : Bool) (payloadSz : Nat) : Option Nat :=
  if blockSz = 0 then none
  else
    let p := (blockSz - add32 (if aead then 1 else 5) payloadSz % blockSz) % 256
    some (if p < 4 then (p + blockSz) % 256 else p)

/-- The second half of `BundlePacket` (src/internal.c:13166-13214): MAC and encrypt `tot` bytes of
finished packet at `start`, of which the padding ends at `idx`. -/
def bundleSeal (s : Ssh P) (mem : Bytes) (start tot idx : Nat) : Option (Option Err × Ssh P) :=
  if s.suite.aead = false then
    let macSz := macSzForId s.suite.macId
    if add32 idx macSz > s.out.bufferSz then some (some .bufferE, { s with out := { s.out with mem := mem } })
    else
      match Buffer.write mem idx (List.replicate macSz 0), Buffer.read mem start tot with
      | some mem, some packet =>
        let m := createMac P s.suite s.seq packet
        match Buffer.write mem idx m.2 with
        | none => none
        | some mem =>
          match m.1 with
          | some e => some (some e, { s with out := { s.out with mem := mem } })
          | none =>
            let r := encrypt P s.suite.encId s.cipher packet
            match Buffer.write mem start r.2.2 with
            | none => none
            | some mem =>
              let hw := if tot = 0 then s.hw else { s.hw with txCount := add32 s.hw.txCount tot }
              let s := { s with cipher := r.2.1, hw := hw }
              match r.1 with
              | some e => some (some e, { s with out := { s.out with mem := mem } })
              | none =>
                some (none, { s with
                  seq := add32 s.seq 1
                  hw := { s.hw with txMsgCount := add32 s.hw.txMsgCount 1 }
                  out := { s.out with mem := mem, length := add32 idx s.suite.macSz } })
      | _, _ => none
  else
    match Buffer.read mem start 4, Buffer.read mem (start + 4) (tot - 4) with
    | some aad, some body =>
      let r := encryptAead P s.suite s.cipher body aad
      match Buffer.write mem (start + 4) r.2.1 with
      | none => none
      | some mem =>
        match Buffer.write mem idx r.2.2 with
        | none => none
        | some mem =>
          let s := { s with
            suite := { s.suite with iv := aeadIncrementExpIv s.suite.iv }
            hw := { s.hw with txCount := add32 s.hw.txCount (tot - 4) } }
          match r.1 with
          | some e => some (some e, { s with out := { s.out with mem := mem } })
          | none =>
            some (none, { s with
              seq := add32 s.seq 1
              hw := { s.hw with txMsgCount := add32 s.hw.txMsgCount 1 }
              out := { s.out with mem := mem, length := add32 idx s.suite.macSz } })
    | _, _ => none

/-- `BundlePacket` (src/internal.c:13117-13219). `rng n` is what `wc_RNG_GenerateBlock` delivers for
`n` bytes (`none`: it failed). A division by zero or a write outside the buffer is `none`. -/
def bundlePacket (rng : Nat → Option Bytes) (s : Ssh P) : Option (Option Err × Ssh P) :=
  let idx := s.out.length
  let payloadSz := sub32 (sub32 (sub32 idx s.startIdx) 4) 1
  match paddingSz s.suite.blockSz s.suite.aead payloadSz with
  | none => none
  | some pad =>
    let packetSz := add32 (add32 1 payloadSz) pad
    match write s.out.mem s.startIdx (c32toa packetSz ++ [UInt8.ofNat pad]) with
    | none => none
    | some mem =>
      if add32 idx pad > s.out.bufferSz then
        some (some .bufferE, { s with out := { s.out with mem := mem } })
      else
        match (if s.suite.encId = .none then some (List.replicate pad 0) else rng pad) with
        | none => some (some .cryptoFailed, { s with out := { s.out with mem := mem } })
        | some padding =>
          match write mem idx padding with
          | none => none
          | some mem => bundleSeal s mem s.startIdx (add32 (sub32 idx s.startIdx) pad) (add32 idx pad)

/-- What the transport's send callback answers (wolfssh/error.h:154-162, src/io.c). -/
inductive IoSend where
  | sent (n : Nat)
  | wantWrite | connRst | connClose | general | other
  deriving DecidableEq, Repr

/-- The test and the checks before each call of the send callback (src/internal.c:4270-4284); `k`
continues with the bytes offered. -/
def offer (b : Buf) (k : Bytes → Option (Option Err × Bytes × Buf)) : Option (Option Err × Bytes × Buf) :=
  if b.length > b.idx then
    if b.length > b.bufferSz then some (some .bufferE, [], b)
    else
      match Buffer.read b.mem b.idx (b.length - b.idx) with
      | none => none
      | some data => k data
  else some (none, [], b)

/-- The loop of `wolfSSH_SendPacket` (src/internal.c:4270-4314) against a list of callback answers:
the error it returns (`none`: everything is written), the bytes the transport took, the buffer.
When the list ends the transport is taken to stall for good (`WS_WANT_WRITE`). -/
def sendLoop : List IoSend → Buf → Option (Option Err × Bytes × Buf)
  | [], b => offer b fun _ => some (some .wantWrite, [], b)
  | a :: io, b => offer b fun data =>
    match a with
    | .wantWrite => some (some .wantWrite, [], b)
    | .connRst | .connClose | .other => some (some .socketError, [], b)
    | .general => (shrinkBuffer [] b true).map fun b => (some .socketError, [], b)
    | .sent n =>
      if n > b.length then some (some .sendOob, data.take n, b)
      else
        (sendLoop io { b with idx := add32 b.idx n }).map
          fun r => (r.1, data.take n ++ r.2.1, r.2.2)

/-- `wolfSSH_SendPacket` (src/internal.c:4261-4317): result, bytes the transport took, whether the
highwater callback was called (it answered `hwRet`). -/
def sendPacket (static : Bytes) (hwRet : Option Err) (io : List IoSend) (s : Ssh P) :
    Option (Option Err × Bytes × Bool × Ssh P) :=
  match sendLoop io s.out with
  | none => none
  | some (some e, d, b) => some (some e, d, false, { s with out := b })
  | some (none, d, b) =>
    match shrinkBuffer static b false with
    | none => none
    | some b =>
      let r := highwaterCheck s.hw
      some (if r.1 then hwRet else none, d, r.1, { s with out := b, hw := r.2 })

/-- `SendProtoId` (src/internal.c:13058-13080) up to the send. -/
def queueRaw (alloc : Nat → Option Bytes) (s : Ssh P) (line : Bytes) : Option (Option Err × Ssh P) :=
  match growBuffer alloc s.out line.length with
  | none => none
  | some (some e, b) => some (some e, { s with out := b })
  | some (none, b) =>
    match write b.mem b.length line with
    | none => none
    | some m => some (none, { s with out := { b with mem := m, length := add32 b.length line.length } })

/-- A sender up to the send: `PreparePacket` for an estimate of the payload size, the payload,
`BundlePacket`. -/
def queue (alloc rng : Nat → Option Bytes) (s : Ssh P) (est : Nat) (payload : Bytes) :
    Option (Option Err × Ssh P) :=
  match preparePacket alloc s est with
  | none => none
  | some (some e, s) => some (some e, s)
  | some (none, s) =>
    match putPayload s payload with
    | none => none
    | some s => bundlePacket rng s

/-- `PurgePacket` (src/internal.c:13225-13233). -/
def purgePacket (s : Ssh P) : Option (Ssh P) :=
  (shrinkBuffer [] { s.out with idx := 0 } true).map fun b => { s with out := b, startIdx := 0 }

/-- `SendNewKeys` after `BundlePacket` succeeded (src/internal.c:16172-16188): the new algorithms
and keys of the handshake `n`, `CipherSetKey` (src/internal.c:1445-1550), counters to zero. -/
def installKeys (n : Suite) (s : Ssh P) : Option Err × Ssh P :=
  let s := { s with suite := n }
  match n.encId with
  | .none => (none, { s with hw := { s.hw with txCount := 0, txMsgCount := 0 }, cipher := none })
  | .unknown => (some .invalidAlgoId, { s with cipher := none })
  | _ =>
    match P.setKey n.encId true n.iv n.encKey with
    | none => (some .cryptoFailed, { s with cipher := none })
    | some c => (none, { s with hw := { s.hw with txCount := 0, txMsgCount := 0 }, cipher := some c })

/-- What makes a connection write: a sender up to its send (with the allocator and random
generator of the moment), the identification line, a call of `wolfSSH_SendPacket` (with the
transport's answers), installing new keys. Every sender of src/internal.c is a `queue` followed by
`flush`es. -/
inductive TxStep where
  | queue (alloc rng : Nat → Option Bytes) (est : Nat) (payload : Bytes)
  | raw (alloc : Nat → Option Bytes) (line : Bytes)
  | flush (static : Bytes) (hwRet : Option Err) (io : List IoSend)
  | keys (n : Suite)

/-- One such step: result, bytes the transport took, new state. -/
def txStep (s : Ssh P) : TxStep → Option (Option Err × Bytes × Ssh P)
  | .queue alloc rng est payload => (queue alloc rng s est payload).map fun r => (r.1, [], r.2)
  | .raw alloc line => (queueRaw alloc s line).map fun r => (r.1, [], r.2)
  | .flush static hwRet io => (sendPacket static hwRet io s).map fun r => (r.1, r.2.1, r.2.2.2)
  | .keys n => some ((installKeys n s).1, [], (installKeys n s).2)

/-- A sequence of steps: the result of each, all bytes the transport took, the final state. -/
def txRun (s : Ssh P) : List TxStep → Option (List (Option Err) × Bytes × Ssh P)
  | [] => some ([], [], s)
  | x :: xs =>
    match txStep s x with
    | none => none
    | some (r, d, s) =>
      match txRun s xs with
      | none => none
      | some (rs, ds, s) => some (r :: rs, d ++ ds, s)

end Wolf.Packet
