import Verif.Model.Gex
import Verif.Model.Kdf
/-!
# The key exchange proper: exchange hash, host key, signature (src/internal.c)

Both sides of `SSH_MSG_KEXDH_INIT` / `SSH_MSG_KEXDH_REPLY` and their group exchange, ECDH,
Curve25519 and ML-KEM hybrid namesakes. The running hash is the bytes fed to it so far; `none` stands
for `WC_HASH_TYPE_NONE`. Key agreement, key import, signing and verification are functions supplied
from outside and may fail. Certificates (`WOLFSSH_CERTS`) and TPM keys are left out. A memory failure
is not told apart from a failing library call.
-/

namespace Wolf.KexDh
open Wolf Wolf.Wire Wolf.Kdf Wolf.Gex

/-- The key exchange methods as far as their messages differ (src/internal.c:15665-15745,
16404-16493). -/
inductive Alg where
  | dh | dhGex | ecdh | curve25519 | ecdhMlKem | curve25519MlKem
  deriving DecidableEq, Repr

/-- `useDh`. -/
def Alg.useDh : Alg → Bool
  | .dh | .dhGex => true
  | _ => false
/-- `useEcdh`. -/
def Alg.useEcdh : Alg → Bool
  | .ecdh | .ecdhMlKem => true
  | _ => false
/-- `useCurve25519`. -/
def Alg.useCurve25519 : Alg → Bool
  | .curve25519 | .curve25519MlKem => true
  | _ => false
/-- `useMlKem`. -/
def Alg.useMlKem : Alg → Bool
  | .ecdhMlKem | .curve25519MlKem => true
  | _ => false
/-- The message number of the init message (src/internal.c:16400-16493). -/
def Alg.initMsg : Alg → Byte
  | .dhGex => 32
  | _ => 30
/-- The message number of the reply: sent (src/internal.c:15665-15745) and expected
(src/internal.c:16400-16493). -/
def Alg.replyMsg : Alg → Byte
  | .dhGex => 33
  | _ => 31

/-- What a session and its handshake keep of a key exchange: `kexHash`, `k`, `h`, `sessionId`, `keys`,
`peerKeys`, `e`, the group exchange values, `ignoreNextKexMsg`, and whether `expectMsgId` is
`MSGID_NEWKEYS`. -/
structure St where
  alg : Alg
  hash : Option Bytes
  k : Bytes
  h : Bytes
  sid : Bytes
  keys : Keys
  peerKeys : Keys
  e : Bytes
  gex : Gex
  ignoreNext : Bool
  expectNewKeys : Bool

/-- The part of `DoKexInit` that starts the exchange hash (src/internal.c:5594-5655). `peerId` is
`peerProtoId` (with its length), `ownId` is `sshProtoIdStr` with its CR LF, `kexInit` the own
`SSH_MSG_KEXINIT` with its length (src/internal.c:13448-13462), `buf` the peer's after the message number. -/
def kexInitHash (isServer : Bool) (peerId ownId kexInit buf : Bytes) : Bytes :=
  let strSz := ownId.length - 2
  (if isServer then peerId else []) ++ c32toa strSz ++ ownId.take strSz ++
  (if isServer then [] else peerId ++ kexInit) ++ c32toa (buf.length + 1) ++ [20] ++ buf ++
  (if isServer then kexInit else [])

/-- `handshake->kexInit` (src/internal.c:13448-13462) for the payload with its message number. -/
def savedKexInit (payload : Bytes) : Bytes := c32toa payload.length ++ payload

/-- A public host key: the numbers of an RSA key, the point of an ECDSA key, or the bytes of an Ed25519 or ML-DSA key. -/
inductive PubKey where
  | rsa (e n : Bytes)
  | ecc (q : Bytes)
  | raw (q : Bytes)
  deriving DecidableEq, Repr

/-- The kinds of host key algorithms: `named` for the composite ML-DSA keys, whose blob must carry the
negotiated name (src/internal.c:6542-6614). -/
inductive Family where
  | rsa | ecc | raw (named : Bool)
  deriving DecidableEq, Repr

/-- The negotiated host key algorithm: `IdToName(pubKeyId)`, `PrimeNameForId(pubKeyId)`, the format name
(`ssh-rsa` for the RSA-SHA2 algorithms) and `IdToName(SigTypeForId(pubKeyId))`. -/
structure HostAlg where
  family : Family
  name : Bytes
  curve : Bytes
  fmtName : Bytes
  sigName : Bytes
  deriving DecidableEq, Repr

/-- A signature as handed to the library. -/
inductive Sig where
  | blob (s : Bytes)
  | rs (r s : Bytes)
  deriving DecidableEq, Repr

/-- Continue after a reader. -/
def rd {α β : Type} (r : Res α) (k : α → Nat → Option (Except Err β)) : Option (Except Err β) :=
  match r with
  | .ub => none
  | .err e _ => some (.error e)
  | .ok v i => k v i

/-- A reference handed on to code that reads it. -/
def use {β : Type} (mem : Bytes) (r : StrRef) (k : Bytes → Option (Except Err β)) : Option (Except Err β) :=
  match deref mem r with
  | none => none
  | some b => k b

/-- The two numbers of an RSA key, if both are in memory. -/
def rsaKey : Option Bytes → Option Bytes → Option (Except Err PubKey)
  | some e, some n => some (.ok (.rsa e n))
  | _, _ => none

/-- `ParseRSAPubKey` (src/internal.c:5996-6043) up to the import. -/
def parseRsa (blob : Bytes) : Option (Except Err PubKey) :=
  rd (getSkip blob blob.length 0) fun _ i =>
  rd (getUint32 blob blob.length i) fun eSz i =>
  if eSz > sub32 blob.length i then some (.error .rsaE)
  else
    rd (getUint32 blob blob.length (add32 i eSz)) fun nSz j =>
    if nSz > sub32 blob.length j then some (.error .rsaE)
    else
      rsaKey (Buffer.read blob i eSz) (Buffer.read blob j nSz)

/-- `ParseECCPubKey` (src/internal.c:6046-6128) up to the import. -/
def parseEcc (a : HostAlg) (blob : Bytes) : Option (Except Err PubKey) :=
  rd (getStringRef blob blob.length 0) fun name i =>
  use blob name fun nm =>
  if name.off = none ∨ nm ≠ a.name then some (.error .invalidAlgoId)
  else
    rd (getStringRef blob blob.length i) fun curve i =>
    use blob curve fun cv =>
    if cv ≠ a.curve then some (.error .invalidPrimeCurve)
    else
      rd (getStringRef blob blob.length i) fun q _ =>
      use blob q fun q => some (.ok (.ecc q))

/-- `ParseEd25519PubKey` (src/internal.c:6132-6162), `ParseMlDsaPubKey` (src/internal.c:6205-6250)
and the head of `ParseMlDsaCompositePubKey` (src/internal.c:22230-22270), up to the import. -/
def parseRaw (a : HostAlg) (named : Bool) (blob : Bytes) : Option (Except Err PubKey) :=
  if named then
    rd (getStringRef blob blob.length 0) fun name i =>
    use blob name fun nm =>
    if name.off = none ∨ nm ≠ a.name then some (.error .keyFormatE)
    else
      rd (getStringRef blob blob.length i) fun q _ =>
      use blob q fun q => some (.ok (.raw q))
  else
    rd (getSkip blob blob.length 0) fun _ i =>
    rd (getStringRef blob blob.length i) fun q _ =>
    use blob q fun q => some (.ok (.raw q))

/-- `ParsePubKey` (src/internal.c:6542-6614): by the negotiated algorithm. -/
def parsePubKey (a : HostAlg) (blob : Bytes) : Option (Except Err PubKey) :=
  match a.family with
  | .rsa => parseRsa blob
  | .ecc => parseEcc a blob
  | .raw named => parseRaw a named blob

/-- The client's surroundings: hash, `publicKeyCheckCb`, negotiated host key algorithm, whether the library
imports a key, `KeyAgree_client` for the ephemeral key sent, signature verification by the negotiated
algorithm. -/
structure ClientEnv where
  H : HashAlg
  check : Option (Bytes → Bool)
  host : HostAlg
  imports : PubKey → Bool
  agree : Bytes → Option Bytes
  verify : PubKey → Bytes → Sig → Bool

/-- What a handler leaves: its result, the new state, the key shown to the callback, whether it went on
to `SendNewKeys`. -/
structure Out where
  ret : Option Err
  st : St
  shown : Option Bytes := none
  newKeys : Bool := false

/-- The host key (src/internal.c:7252-7263): the key with its length, the key, and the cursor after it. -/
def replyKey (buf : Bytes) (len idx : Nat) : Option (Except Err (Bytes × Bytes × Nat)) :=
  if len < add32 8 idx then some (.error .bufferE)
  else
    rd (getUint32 buf len idx) fun sz begin =>
    if sz > sub32 (sub32 len 4) begin then some (.error .bufferE)
    else
      match Buffer.read buf begin sz, Buffer.read buf (begin - 4) (add32 sz 4) with
      | some blob, some ks => some (.ok (ks, blob, add32 begin sz))
      | _, _ => none

/-- A length-prefixed field (src/internal.c:7381-7401 for f): with its length, without, cursor after it. -/
def replyField (buf : Bytes) (len begin : Nat) : Option (Except Err (Bytes × Bytes × Nat)) :=
  rd (getUint32 buf len begin) fun sz i =>
  if sz > sub32 len i then some (.error .parseE)
  else
    match Buffer.read buf i sz, Buffer.read buf begin (add32 sz 4) with
    | some f, some blk => some (.ok (blk, f, add32 i sz))
    | _, _ => none

/-- The group exchange values the client hashes (src/internal.c:7300-7367). -/
def clientGexBytes (st : St) : Except Err Bytes :=
  if st.alg = .dhGex then
    match st.gex.prime, st.gex.generator with
    | some p, some g => .ok (hashedClient st.gex p g)
    | _, _ => .error .badArgument
  else .ok []

/-- The check of the signature block (src/internal.c:7473-7603). -/
def checkSig (E : ClientEnv) (pk : PubKey) (h sig : Bytes) : Option (Except Err Unit) :=
  rd (getStringRef sig sig.length 0) fun name i =>
  use sig name fun nm =>
  if nm ≠ E.host.sigName then some (.error .parseE)
  else
    rd (getSize sig sig.length i) fun sz i =>
    match Buffer.read sig i sz with
    | none => none
    | some s =>
      match E.host.family with
      | .rsa =>
        if sz < 2 then some (.error .rsaE)
        else if E.verify pk h (.blob s) then some (.ok ()) else some (.error .rsaE)
      | .ecc =>
        rd (getStringRef s s.length 0) fun r i =>
        rd (getStringRef s s.length i) fun s' _ =>
        use s r fun r =>
        use s s' fun s' => if E.verify pk h (.rs r s') then some (.ok ()) else some (.error .eccE)
      | .raw _ => if E.verify pk h (.blob s) then some (.ok ()) else some (.error .sigE)

/-- `CreateMpint` where the method encodes a value as an mpint; otherwise the value and no pad. -/
def asMpint (mp : Bool) (v : Bytes) : Bytes × Nat := if mp then createMpint v 0 else (v, 0)

/-- The end of `DoKexDhReply` (src/internal.c:7605-7618). -/
def clientKeys (E : ClientEnv) (st : St) (shown : Bytes) : Option Out :=
  match generateKeys E.H false st.keys st.peerKeys st.k st.h st.sid (!st.alg.useMlKem) with
  | none => none
  | some (some e, ks, ps) => some { ret := some e, st := { st with keys := ks, peerKeys := ps }, shown }
  | some (none, ks, ps) =>
    some { ret := none, st := { st with keys := ks, peerKeys := ps, expectNewKeys := true }, shown, newKeys := true }

/-- `DoKexDhReply` from the parsed message on (src/internal.c:7419-7618); `hash` is what has been hashed. -/
def clientFinish (E : ClientEnv) (st : St) (hash blob f sig : Bytes) : Option Out :=
  match parsePubKey E.host blob with
  | none => none
  | some (.error _) => some { ret := some .cryptoFailed, st, shown := blob }
  | some (.ok pk) =>
    if E.imports pk = false then some { ret := some .cryptoFailed, st, shown := blob }
    else
      match E.agree f with
      | none => some { ret := some .cryptoFailed, st, shown := blob }
      | some k0 =>
        let kp := asMpint (!st.alg.useMlKem) k0
        match E.H.run (hash ++ mpintOnWire kp) with
        | none => some { ret := some .cryptoFailed, st := { st with k := kp.1, hash := none }, shown := blob }
        | some h =>
          let st := { st with k := kp.1, h, hash := none, sid := if st.sid = [] then h else st.sid }
          match checkSig E pk h sig with
          | none => none
          | some (.error e) => some { ret := some e, st, shown := blob }
          | some (.ok ()) => clientKeys E st blob

/-- `DoKexDhReply` after the callback accepted (src/internal.c:7283-7417). -/
def clientReply (E : ClientEnv) (st : St) (ks blob buf : Bytes) (len begin : Nat) : Option Out :=
  match st.hash with
  | none => some { ret := some .cryptoFailed, st, shown := blob }
  | some h0 =>
    match clientGexBytes st with
    | .error e => some { ret := some e, st := { st with hash := some (h0 ++ ks) }, shown := blob }
    | .ok g =>
      let h1 := h0 ++ ks ++ g ++ (c32toa st.e.length ++ st.e)
      match replyField buf len begin with
      | none => none
      | some (.error e) => some { ret := some e, st := { st with hash := some h1 }, shown := blob }
      | some (.ok (fBlk, f, begin)) =>
        let st := { st with hash := some (h1 ++ fBlk) }
        match replyField buf len begin with
        | none => none
        | some (.error e) => some { ret := some e, st, shown := blob }
        | some (.ok (_, sig, _)) => clientFinish E st (h1 ++ fBlk) blob f sig

/-- `DoKexDhReply` (src/internal.c:7221-7625), up to `SendNewKeys`. `none` is undefined behaviour. -/
def doKexDhReply (E : ClientEnv) (st : St) (buf : Bytes) (len idx : Nat) : Option Out :=
  if len = 0 then some { ret := some .badArgument, st }
  else if st.ignoreNext then some { ret := none, st := { st with ignoreNext := false } }
  else
    match replyKey buf len idx with
    | none => none
    | some (.error e) => some { ret := some e, st }
    | some (.ok (ks, blob, begin)) =>
      match E.check with
      | none => some { ret := some .pubkeyRejected, st }
      | some check =>
        if check blob then clientReply E st ks blob buf len begin
        else some { ret := some .pubkeyRejected, st, shown := blob }

/-- `SendKexDhInit` (src/internal.c:16384-16690) once the ephemeral key is made: the state and the payload after
the message number. -/
def sendKexDhInit (st : St) (e : Bytes) : St × Bytes :=
  let ep := asMpint (!st.alg.useMlKem && !st.alg.useCurve25519) e
  ({ st with e := List.replicate ep.2 0 ++ ep.1 },
   c32toa (ep.1.length + ep.2) ++ List.replicate ep.2 0 ++ ep.1)

/-- The server's surroundings: hash, `sizeof(handshake->e)`, build, negotiated host key algorithm, the public part of the
configured key of that format, ephemeral key and agreement, signing. -/
structure ServerEnv where
  H : HashAlg
  eMax : Nat
  build : Build
  host : HostAlg
  key : Option PubKey
  agree : Bytes → Option (Bytes × Bytes)
  sign : Bytes → Option Sig

/-- `sigKeyBlock_ptr->sz` (src/internal.c:13927-13931, 14052-14055, 14129-14131,
14211-14213, 14378-14380). -/
def keyBlockSz (a : HostAlg) : PubKey → Nat
  | .rsa e n =>
    let ep := createMpint e 0
    let np := createMpint n 0
    4 * 3 + a.fmtName.length + ep.1.length + ep.2 + np.1.length + np.2
  | .ecc q => 4 * 3 + a.fmtName.length + a.curve.length + q.length
  | .raw q => 4 * 2 + a.fmtName.length + q.length

/-- The host key as `SendKexGetSigningKey` hashes it (src/internal.c:13927-13983, 14052-14090,
14129-14160, 14211-14240, 14378-14400). -/
def hashedKey (a : HostAlg) (pk : PubKey) : Bytes :=
  c32toa (keyBlockSz a pk) ++ c32toa a.fmtName.length ++ a.fmtName ++
  match pk with
  | .rsa e n => mpintOnWire (createMpint e 0) ++ mpintOnWire (createMpint n 0)
  | .ecc q => c32toa a.curve.length ++ a.curve ++ c32toa q.length ++ q
  | .raw q => c32toa q.length ++ q

/-- The host key as `SendKexDhReply` writes it (src/internal.c:15955-16060). -/
def sentKey (a : HostAlg) (pk : PubKey) : Bytes :=
  c32toa (keyBlockSz a pk) ++ (c32toa a.fmtName.length ++ a.fmtName) ++
  match pk with
  | .rsa e n =>
    let ep := createMpint e 0
    let np := createMpint n 0
    c32toa (ep.1.length + ep.2) ++ List.replicate ep.2 0 ++ ep.1 ++
    c32toa (np.1.length + np.2) ++ List.replicate np.2 0 ++ np.1
  | .ecc q => c32toa a.curve.length ++ a.curve ++ c32toa q.length ++ q
  | .raw q => c32toa q.length ++ q

/-- The group exchange values the server hashes (src/internal.c:14446-14509). -/
def serverGexBytes (E : ServerEnv) (st : St) : Except Err Bytes :=
  if st.alg = .dhGex then
    match gexGroup E.build st.gex with
    | .ok (p, g) => .ok (hashedServer st.gex p g)
    | .error e => .error e
  else .ok []

/-- The content of the signature string: what `SignH` leaves (src/internal.c:15527-15580), for ECDSA the two
numbers (src/internal.c:15432-15449). -/
def sigContent : Sig → Bytes
  | .blob s => s
  | .rs r s => padded r ++ padded s

/-- The payload of the reply with its message number (src/internal.c:15945-16095), and the size given to `PreparePacket`
(src/internal.c:15921-15944). -/
def replyPayload (E : ServerEnv) (alg : Alg) (pk : PubKey) (fp : Bytes × Nat) (sig : Bytes) : Nat × Bytes :=
  let sigBlockSz := 4 * 2 + E.host.sigName.length + sig.length
  (1 + 4 * 3 + keyBlockSz E.host pk + fp.1.length + fp.2 + sigBlockSz,
   [alg.replyMsg] ++ sentKey E.host pk ++
   (c32toa (fp.1.length + fp.2) ++ List.replicate fp.2 0 ++ fp.1) ++
   c32toa sigBlockSz ++ (c32toa E.host.sigName.length ++ E.host.sigName) ++ (c32toa sig.length ++ sig))

/-- What the server's handler leaves; `reply` is the packet, after which `SendNewKeys` follows. -/
structure SOut where
  ret : Option Err
  st : St
  reply : Option (Nat × Bytes) := none

/-- The end of `SendKexDhReply` (src/internal.c:15850-16105): signature, keys, packet. -/
def serverFinish (E : ServerEnv) (st : St) (pk : PubKey) (fp : Bytes × Nat) : Option SOut :=
  match E.sign st.h with
  | none => some { ret := some .cryptoFailed, st }
  | some sig =>
    match generateKeys E.H true st.keys st.peerKeys st.k st.h st.sid (!st.alg.useMlKem) with
    | none => none
    | some (some e, ks, ps) => some { ret := some e, st := { st with keys := ks, peerKeys := ps } }
    | some (none, ks, ps) =>
      some { ret := none, st := { st with keys := ks, peerKeys := ps, expectNewKeys := true },
             reply := some (replyPayload E st.alg pk fp (sigContent sig)) }

/-- `SendKexDhReply` (src/internal.c:15584-16130) with `SendKexGetSigningKey`
(src/internal.c:13849-14530), up to the packet layer. -/
def sendKexDhReply (E : ServerEnv) (st : St) : Option SOut :=
  match E.key with
  | none => some { ret := some .invalidAlgoId, st }
  | some pk =>
    match st.hash with
    | none => some { ret := some .cryptoFailed, st }
    | some h0 =>
      match serverGexBytes E st with
      | .error e => some { ret := some e, st := { st with hash := some (h0 ++ hashedKey E.host pk) } }
      | .ok g =>
        let h1 := h0 ++ hashedKey E.host pk ++ g ++ (c32toa st.e.length ++ st.e)
        match E.agree st.e with
        | none => some { ret := some .cryptoFailed, st := { st with hash := some h1 } }
        | some (f, k0) =>
          let fp := asMpint (st.alg.useDh || (st.alg.useEcdh && !st.alg.useMlKem)) f
          let kp := asMpint (!st.alg.useMlKem) k0
          match E.H.run (h1 ++ mpintOnWire fp ++ mpintOnWire kp) with
          | none => some { ret := some .cryptoFailed, st := { st with k := kp.1, hash := none } }
          | some h =>
            serverFinish E { st with k := kp.1, h, hash := none, sid := if st.sid = [] then h else st.sid } pk fp

/-- `DoKexDhInit` (src/internal.c:5894-5937). -/
def doKexDhInit (E : ServerEnv) (st : St) (buf : Bytes) (len idx : Nat) : Option SOut :=
  if len = 0 then some { ret := some .badArgument, st }
  else if st.ignoreNext then some { ret := none, st := { st with ignoreNext := false } }
  else
    match getStringRef buf len idx with
    | .ub => none
    | .err e _ => some { ret := some e, st }
    | .ok e _ =>
      if e.sz > E.eMax ∨ e.sz = 0 then some { ret := some .pubkeyRejected, st }
      else
        match deref buf e with
        | none => none
        | some e => sendKexDhReply E { st with e }

end Wolf.KexDh
