import Verif.Model.Wire
import Verif.Model.NameList
import Verif.Model.OsshCert
/-!
# The key agent (src/agent.c)

What a process that holds a connection does with the user's key agent: asking it for a signature
(`wolfSSH_AGENT_SignRequest`), with the reader of the agent's messages that this call uses on the reply, and handing
messages through to it (`wolfSSH_AGENT_Relay`).

Memory is explicit for the reply: `DoMessage` and everything it calls read a buffer of bytes, and reading outside it, or
writing outside an allocation, is the outcome `none` (undefined behaviour). Left out or simplified: allocation failures;
the cryptography (`Env.sha`, `Env.sign`: SHA-256, and `wc_Hash` with `SignHashRsa`/`SignHashEcc`, as functions chosen by
the environment); the logging (`DUMP` is empty in the default build); NULL `ssh`, `sig`, `sigSz`, `msg`, `rsp` arguments.
`PostLock` and `PostUnlock` are stubs in the C that copy the passphrase to an allocation and free it.
-/

namespace Wolf.Agent
open Wolf Wolf.Wire Wolf.NameList Wolf.OsshCert

/-- Return codes: a library code, the agent codes (wolfssh/error.h: `WS_AGENT_NULL_E`, `WS_AGENT_NO_KEY_E`,
`WS_AGENT_CXN_FAIL`, `WS_ERROR`), or what the application's agent callback returned. -/
inductive AErr where
  | lib (e : Err)
  | agentNull | noKey | cxnFail | error
  | cb (n : Int)
  deriving DecidableEq, Repr

/-- `none` is `WS_SUCCESS` (and `WS_AGENT_SUCCESS`, which is 0 too). -/
abbrev ARet := Option AErr

/-- `WOLFSSH_AGENT_ID` (wolfssh/agent.h:101-113): `fields` are the offsets and sizes in `buf` (`keyBuffer`) of the
parts of the key and, last, of the comment; the key blob is the first `blobSz` bytes of `buf`. -/
structure Ident where
  keyType : Nat
  buf : Bytes
  blobSz : Nat
  fields : List (Nat × Nat)
  digest : Bytes
  deriving DecidableEq, Repr

/-- Offset and size of the comment, the last field. -/
def Ident.comment (i : Ident) : Nat × Nat := i.fields.getLastD (0, 0)

/-- Where `agent->msg` points. -/
inductive Msg where
  | null
  | heap (b : Bytes)
  | rx (off : Nat)
  deriving DecidableEq, Repr

/-- `WOLFSSH_AGENT_CTX` (wolfssh/agent.h:130-144). `lost` counts the allocations whose only pointer was overwritten
(not in the C). `connected` is `state != AGENT_STATE_INIT`. -/
structure Ctx where
  msg : Msg := .null
  msgSz : Nat := 0
  ids : List Ident := []
  idsSz : Nat := 0
  failure : Bool := false
  success : Bool := false
  lastMsgId : Nat := 0
  connected : Bool := false
  error : ARet := none
  lost : Nat := 0
  deriving DecidableEq, Repr

/-- The cryptography: SHA-256 (`none`: it failed), and the result of hashing and signing with an identity under the
flags of the request: the size of the signature or an error. -/
structure Env where
  sha : Bytes → Option Bytes
  sign : Ident → Bytes → Nat → Except AErr Nat

/-- `PrepareMessage` (src/agent.c:77-105) for `payloadSz` bytes, the writes of `payload` behind the length, and
`BundleMessage` (src/agent.c:108-130). The allocation has `payloadSz + 4` bytes as a `word32`; writing more is undefined,
and so is freeing an `agent->msg` that points into the receive buffer. What `BundleMessage` compares is equal here. -/
def build (a : Ctx) (payloadSz : Nat) (payload : Bytes) : Option (ARet × Ctx) :=
  if payloadSz = 0 then some (some (.lib .badArgument), a)
  else
    match a.msg with
    | .rx _ => none
    | _ =>
      let alloc := add32 payloadSz 4
      if 4 + payload.length > alloc then none
      else some (none, { a with msg := .heap (c32toa payloadSz ++ payload), msgSz := alloc })

/-- The `WFREE(agent->msg)` that ends `SendIdentitiesAnswer` and `SendSignResponse` (src/agent.c:260-266, 352-358):
nothing is ever sent. -/
def buildAndFree (a : Ctx) (payloadSz : Nat) (payload : Bytes) : Option (ARet × Ctx) :=
  match build a payloadSz payload with
  | some (none, a') => some (none, { a' with msg := .null, msgSz := 0 })
  | r => r

/-- The size of a list of sizes, as the C adds them. -/
def sum32 : List Nat → Nat
  | [] => 0
  | n :: l => add32 n (sum32 l)

/-- `n` bytes at offset `o` of a buffer; `none` if they are not all there. -/
def slice (b : Bytes) (o n : Nat) : Option Bytes :=
  if o + n ≤ b.length then some ((b.drop o).take n) else none

/-- The entries of the identities answer (the second loop of `SendIdentitiesAnswer`, src/agent.c:242-253). -/
def listIds : List Ident → Option Bytes
  | [] => some []
  | i :: l =>
    match slice i.buf 0 i.blobSz, slice i.buf i.comment.1 i.comment.2, listIds l with
    | some k, some c, some r => some (c32toa i.blobSz ++ k ++ (c32toa i.comment.2 ++ c) ++ r)
    | _, _, _ => none

/-- `SendIdentitiesAnswer` (src/agent.c:214-270). -/
def sendIdentitiesAnswer (a : Ctx) : Option (ARet × Ctx) :=
  let msgSz := add32 5 (sum32 (a.ids.map fun i => add32 8 (add32 i.blobSz i.comment.2)))
  match listIds a.ids with
  | none => none
  | some l => buildAndFree a msgSz ([12] ++ c32toa a.ids.length ++ l)

/-- `SendSignRequest` (src/agent.c:274-323). -/
def sendSignRequest (a : Ctx) (data key : Bytes) (flags : Nat) : Option (ARet × Ctx) :=
  build a (add32 13 (add32 data.length key.length))
    ([13] ++ c32toa key.length ++ key ++ (c32toa data.length ++ data) ++ c32toa flags)

/-- `FindKeyId` (src/agent.c:676-710) once the digest is known; comparing with a blob outside the identity's buffer is
undefined. -/
def findKeyId (d key : Bytes) : List Ident → Option (Option Ident)
  | [] => some none
  | i :: l =>
    if d = i.digest then some (some i)
    else if i.blobSz ≠ key.length then findKeyId d key l
    else
      match slice i.buf 0 i.blobSz with
      | none => none
      | some b => if key = b then some (some i) else findKeyId d key l

/-- `RSA_MAX_SIZE / 8 + 1` with the default `RSA_MAX_SIZE` of 4096 bits (wolfssl/wolfcrypt/rsa.h). -/
def RSA_SIG_MAX : Nat := 513

/-- `PostSignRequest` (src/agent.c:830-968): the size of the signature comes from the identity. -/
def postSignRequest (E : Env) (a : Ctx) (key data : Bytes) (flags : Nat) : Option (ARet × Ctx) :=
  if key = [] then some (some (.lib .badArgument), a)
  else
    match E.sha key with
    | none => some (some .noKey, a)
    | some d =>
      match findKeyId d key a.ids with
      | none => none
      | some none => some (some .noKey, a)
      | some (some i) =>
        let rsa := i.keyType = ID_SSH_RSA
        let ecc := i.keyType = ID_ECDSA_SHA2_NISTP256 ∨ i.keyType = ID_ECDSA_SHA2_NISTP384 ∨
          i.keyType = ID_ECDSA_SHA2_NISTP521
        if ¬ (rsa ∧ (flags &&& 2 ≠ 0 ∨ flags &&& 4 ≠ 0)) ∧ ¬ ecc then some (some (.lib .invalidAlgoId), a)
        else if rsa ∧ ((i.fields.headD (0, 0)).2 > RSA_SIG_MAX ∨ (i.fields.headD (0, 0)).2 = 0) then
          some (some (.lib .bufferE), a)
        else
          match E.sign i data flags with
          | .error e => some (some e, a)
          | .ok 0 => some (some (.lib .badArgument), a)
          | .ok n => buildAndFree a (add32 5 n) ([14] ++ c32toa n ++ List.replicate n 0)

/-- Offsets and sizes of the fields of a key buffer (src/agent.c:477-505, 561-577): each field follows its length. -/
def fieldsAt : Nat → List Nat → List (Nat × Nat)
  | _, [] => []
  | k, s :: r => (add32 k 4, s) :: fieldsAt (add32 (add32 k 4) s) r

/-- `PostAddRsaId` (src/agent.c:439-518) and `PostAddEcdsaId` (src/agent.c:522-588), which differ in the fields: `key` is
the memory from the first field on, `sizes` the sizes read. The blob is the first two fields. -/
def postAddId (E : Env) (a : Ctx) (keyType : Nat) (key : Bytes) (sizes : List Nat) : Option (ARet × Ctx) :=
  let keySz := add32 (sum32 sizes) (4 * sizes.length)
  let blobSz := add32 (add32 (sizes.getD 0 0) (sizes.getD 1 0)) 8
  match slice key 0 keySz, slice key 0 blobSz with
  | some kb, some bl =>
    match E.sha bl with
    | none => some (some (.lib .cryptoFailed), a)
    | some d => some (none, { a with
        ids := ⟨keyType, kb, blobSz, fieldsAt 0 sizes, d⟩ :: a.ids, idsSz := add32 a.idsSz 1 })
  | _, _ => none

/-- `PostRemoveId` (src/agent.c:592-643): the first identity with that digest goes. -/
def postRemoveId (E : Env) (a : Ctx) (key : Bytes) : ARet × Ctx :=
  if key = [] then (some (.lib .badArgument), a)
  else
    match E.sha key with
    | none => (some (.lib .cryptoFailed), a)
    | some d =>
      if a.ids.any (fun i => i.digest = d) then
        (none, { a with ids := a.ids.eraseP (fun i => i.digest = d), idsSz := sub32 a.idsSz 1 })
      else (none, a)

/-- What a handler leaves: undefined, or its return code, the context and the payload bytes it consumed. -/
abbrev HRes := Option (ARet × Ctx × Nat)

/-- A result with the payload index on success (`*idx = begin`), unchanged otherwise. -/
def withIdx (r : Option (ARet × Ctx)) (idx : Nat) : HRes :=
  match r with
  | none => none
  | some (none, a) => some (none, a, idx)
  | some (some e, a) => some (some e, a, 0)

/-- `DoSignRequest` (src/agent.c:1046-1079); `mem` is the payload behind the message id. -/
def doSignRequest (E : Env) (a : Ctx) (mem : Bytes) (len : Nat) : HRes :=
  if len = 0 then some (some (.lib .badArgument), a, 0)
  else
    match getStringRef mem len 0 with
    | .ub => none
    | .err e _ => some (some (.lib e), a, 0)
    | .ok k i =>
      match getStringRef mem len i with
      | .ub => none
      | .err e _ => some (some (.lib e), a, 0)
      | .ok d j =>
        match getUint32 mem len j with
        | .ub => none
        | .err e _ => some (some (.lib e), a, 0)
        | .ok flags n =>
          match deref mem k, deref mem d with
          | some key, some data => withIdx (postSignRequest E a key data flags) n
          | _, _ => none

/-- `DoSignResponse` (src/agent.c:1082-1103): `agent->msg` points at the signature in the buffer; `base` is where `mem`
begins in it. -/
def doSignResponse (a : Ctx) (mem : Bytes) (len base : Nat) : HRes :=
  if len = 0 then some (some (.lib .badArgument), a, 0)
  else
    match getStringRef mem len 0 with
    | .ub => none
    | .err e i => some (some (.lib e), a, i)
    | .ok r i =>
      some (none, { a with msg := match r.off with | none => .null | some o => .rx (base + o), msgSz := r.sz }, i)

/-- `NameToId` on `sz` bytes at `o` (src/internal.c:3578-3604): memory is read only when some name has that size, and
no name of the table has more than 64 bytes. -/
def nameToIdAt (mem : Bytes) (o sz : Nat) : Option Nat :=
  match slice mem o sz with
  | some n => some (nameToId keyTable n)
  | none => if sz ≤ 64 then none else some ID_UNKNOWN

/-- The fields of a key, one reader after the other: `true` reads with `GetMpint`, `false` with `GetStringRef`; the
sizes (src/agent.c:1146-1172, 1197-1212). -/
def readFields (mem : Bytes) (len : Nat) : Nat → List Bool → Res (List Nat)
  | idx, [] => .ok [] idx
  | idx, m :: l =>
    match (if m then getMpint mem len idx else getStringRef mem len idx) with
    | .ub => .ub
    | .err e i => .err e i
    | .ok r i =>
      match readFields mem len i l with
      | .ub => .ub
      | .err e j => .err e j
      | .ok s j => .ok (r.sz :: s) j

/-- The fields of an RSA key (n, e, d, iqmp, p, q, comment) and of an ECDSA key (curve name, Q, d, comment). -/
def rsaFields : List Bool := [true, true, true, true, true, true, false]
def eccFields : List Bool := [false, true, true, false]

/-- `DoAddIdentity` (src/agent.c:1106-1228). The test `begin + sz > len` is done in `word32`. -/
def doAddIdentity (E : Env) (a : Ctx) (mem : Bytes) (len : Nat) : HRes :=
  if len = 0 then some (some (.lib .badArgument), a, 0)
  else if 4 > len then some (some (.lib .parseE), a, 0)
  else
    match mem[0]?, mem[1]?, mem[2]?, mem[3]? with
    | some b0, some b1, some b2, some b3 =>
      let sz := ato32 b0 b1 b2 b3
      if add32 4 sz > len then some (some (.lib .parseE), a, 0)
      else
        match nameToIdAt mem 4 sz with
        | none => none
        | some kt =>
          let begin := add32 4 sz
          let fields : Option (List Bool) :=
            if kt = ID_SSH_RSA then some rsaFields
            else if kt = ID_ECDSA_SHA2_NISTP256 ∨ kt = ID_ECDSA_SHA2_NISTP384 ∨ kt = ID_ECDSA_SHA2_NISTP521 then
              some eccFields
            else none
          match fields with
          | none => some (some (.lib .parseE), a, 0)
          | some fs =>
            match readFields mem len begin fs with
            | .ub => none
            | .err e _ => some (some (.lib e), a, 0)
            | .ok sizes n => withIdx (postAddId E a kt (mem.drop begin) sizes) n
    | _, _, _, _ => none

/-- `DoRemoveIdentity` (src/agent.c:1231-1265). -/
def doRemoveIdentity (E : Env) (a : Ctx) (mem : Bytes) (len : Nat) : HRes :=
  if len = 0 then some (some (.lib .badArgument), a, 0)
  else if 4 > len then some (some (.lib .parseE), a, 0)
  else
    match getStringRef mem len 0 with
    | .ub => none
    | .err e _ => some (some (.lib e), a, 0)
    | .ok k i =>
      match deref mem k with
      | none => none
      | some key => withIdx (some (postRemoveId E a key)) i

/-- `DoRemoveAllIdentities` (src/agent.c:1268-1287) with `PostRemoveAllIds` (src/agent.c:646-657). -/
def doRemoveAll (a : Ctx) (len : Nat) : HRes :=
  if len ≠ 0 then some (some (.lib .badArgument), a, 0) else some (none, { a with ids := [], idsSz := 0 }, 0)

/-- `DoAgentLock` and `DoAgentUnlock` (src/agent.c:1290-1378): the passphrase of at most 256 bytes is copied and
forgotten. -/
def doLock (a : Ctx) (mem : Bytes) (len : Nat) : HRes :=
  if len = 0 then some (some (.lib .badArgument), a, 0)
  else if 4 > len then some (some (.lib .parseE), a, 0)
  else
    match mem[0]?, mem[1]?, mem[2]?, mem[3]? with
    | some b0, some b1, some b2, some b3 =>
      let sz := ato32 b0 b1 b2 b3
      if sz > 256 ∨ add32 4 sz > len then some (some (.lib .parseE), a, 0)
      else
        match slice mem 4 sz with
        | none => none
        | some _ => some (none, a, add32 4 sz)
    | _, _, _, _ => none

/-- `DoUnimplemented` (src/agent.c:1381-1406): a failure message is built with `SendFailure` (src/agent.c:133-155) and
left in `agent->msg`. -/
def doUnimplemented (a : Ctx) (len : Nat) : HRes :=
  match build a 1 [5] with
  | none => none
  | some (none, a') => some (some (.lib .unimplemented), a', len)
  | some (some e, a') => some (some e, a', len)

/-- The `switch` of `DoMessage` (src/agent.c:1449-1533): `m` is the memory behind the message id, `n` what the message
has of it, `base` where it begins. -/
def dispatch (E : Env) (a : Ctx) (id : Byte) (m : Bytes) (n base : Nat) : HRes :=
  if id = 5 then
    if n ≠ 0 then some (some (.lib .parseE), a, 0) else some (none, { a with failure := true }, 0)
  else if id = 6 then
    if n ≠ 0 then some (some (.lib .parseE), a, 0) else some (none, { a with success := true }, 0)
  else if id = 11 then
    if n ≠ 0 then some (some (.lib .parseE), a, 0) else withIdx (sendIdentitiesAnswer a) 0
  else if id = 12 then some (none, a, 0)
  else if id = 13 then doSignRequest E a m n
  else if id = 14 then doSignResponse a m n base
  else if id = 17 then doAddIdentity E a m n
  else if id = 18 then doRemoveIdentity E a m n
  else if id = 19 then doRemoveAll a n
  else if id = 22 then doLock a m n
  else if id = 23 then doLock a m n
  else doUnimplemented a n

/-- `DoMessage` (src/agent.c:1414-1545) with a non-NULL context, buffer and index 0; the index it leaves is not used. -/
def doMessage (E : Env) (a : Ctx) (mem : Bytes) (len : Nat) : Option (ARet × Ctx) :=
  let a := { a with lastMsgId := 0 }
  if len = 0 then some (some (.lib .badArgument), a)
  else
    match getSize mem len 0 with
    | .ub => none
    | .err _ _ => some (some (.lib .overflowE), a)
    | .ok payloadSz begin =>
      if payloadSz = 0 then some (some (.lib .overflowE), a)
      else
        match mem[begin]? with
        | none => none
        | some id =>
          let base := add32 begin 1
          let a := { a with lastMsgId := id.toNat }
          match dispatch E a id (mem.drop base) (sub32 payloadSz 1) base with
          | none => none
          | some (ret, a, _) => some (ret, a)

/-- What the process sees of its user's agent: the result of the setup callback (`none`: no callback set), whether the
I/O callback is set, what a write of given bytes returns, and what the read after it returns and leaves in the buffer. -/
structure Peer where
  setup : Option Int
  io : Bool
  wrote : Bytes → Int
  rx : Bytes → Int × Bytes

/-- A call of the application's callbacks. -/
inductive Ev where
  | setup
  | write (b : Bytes)
  | read (n : Nat)
  | cleanup
  deriving DecidableEq, Repr

/-- `(int)n` for a `word32`. -/
def toInt (n : Nat) : Int := if n < 2147483648 then n else (n : Int) - 4294967296

/-- `WOLFSSH_AGENT_MAX_RSP_SZ` (src/agent.c:71-75). -/
def MAX_RSP : Nat := 2048

/-- What a call of `wolfSSH_AGENT_SignRequest` leaves: its return code, `*sigSz`, the bytes copied to `sig` if any, the
callbacks called and the context. -/
structure Out where
  ret : ARet
  sigSz : Nat
  sig : Option Bytes
  evs : List Ev
  ctx : Ctx
  deriving DecidableEq, Repr

/-- The allocation whose pointer `agent->msg = NULL` overwrites, if it has one. -/
def lostBy (m : Msg) : Nat := match m with | .heap _ => 1 | _ => 0

/-- The reading half of `wolfSSH_AGENT_SignRequest` (src/agent.c:1908-1946): the reply of `n` bytes is in `mem`; the
signature or an error. -/
def takeReply (E : Env) (a : Ctx) (n : Int) (mem : Bytes) (cap : Nat) : Option (Except AErr Bytes × Ctx) :=
  if n ≤ 0 then some (.error .noKey, a)
  else
    match doMessage E a mem n.toNat with
    | none => none
    | some (some e, a) => some (.error e, a)
    | some (none, a) =>
      if a.lastMsgId ≠ 14 then some (.error .noKey, a)
      else if a.failure ∨ a.msg = .null ∨ a.msgSz = 0 then some (.error .noKey, { a with failure := false })
      else if a.msgSz > cap then some (.error (.lib .bufferE), a)
      else
        match a.msg with
        | .rx o => (slice mem o a.msgSz).map fun s => (.ok s, a)
        | .heap b => (slice b 0 a.msgSz).map fun s => (.ok s, a)
        | .null => none

/-- `wolfSSH_AGENT_SignRequest` (src/agent.c:1849-1971) with a context (`a`), a receive buffer that could be allocated,
and a `sig` of `cap` (`*sigSz`) bytes. Calling an I/O callback that is not set is undefined. -/
def signRequest (E : Env) (P : Peer) (a : Ctx) (data key : Bytes) (cap flags : Nat) : Option Out :=
  let a := { a with failure := false, success := false, lost := a.lost + lostBy a.msg, msg := .null, msgSz := 0,
                    lastMsgId := 0 }
  let evs0 := if P.setup.isSome then [Ev.setup] else []
  let fin := if P.setup.isSome then [Ev.cleanup] else []
  let fail (e : AErr) (a : Ctx) (evs : List Ev) : Option Out :=
    some ⟨some e, 0, none, evs ++ fin, { a with lost := a.lost + lostBy a.msg, msg := .null, msgSz := 0 }⟩
  if P.setup.getD 0 ≠ 0 then fail (.cb (P.setup.getD 0)) a evs0
  else
    match sendSignRequest a data key flags with
    | none => none
    | some (some e, a) => fail e a evs0
    | some (none, a) =>
      match a.msg with
      | .heap m =>
        if P.io = false then none
        else
          let a' := { a with msg := .null, msgSz := 0 }
          let evs1 := evs0 ++ [.write m]
          if P.wrote m ≠ toInt a.msgSz then fail .cxnFail a' evs1
          else
            let evs2 := evs1 ++ [.read MAX_RSP]
            match takeReply E a' (P.rx m).1 (P.rx m).2 cap with
            | none => none
            | some (.error e, a) => fail e a evs2
            | some (.ok s, a) =>
              some ⟨none, s.length, some s, evs2 ++ fin,
                { a with lost := a.lost + lostBy a.msg, msg := .null, msgSz := 0 }⟩
      | _ => none

/-- `wolfSSH_AGENT_SignRequest` on a session without an agent context (src/agent.c:1865-1868, 1947-1960): the cleanup
callback is called though nothing was set up. -/
def signRequestNoAgent (P : Peer) : ARet × Nat × List Ev :=
  (some .agentNull, 0, if P.setup.isSome then [.cleanup] else [])

/-- A process asking for signatures one after the other on the same context. -/
structure Call where
  env : Env
  peer : Peer
  data : Bytes
  key : Bytes
  cap : Nat
  flags : Nat

/-- The calls of a process, in order; `none` if one of them is undefined. -/
def runCalls (a : Ctx) : List Call → Option (List Out × Ctx)
  | [] => some ([], a)
  | c :: l =>
    match signRequest c.env c.peer a c.data c.key c.cap c.flags with
    | none => none
    | some o => (runCalls o.ctx l).map fun (os, a) => (o :: os, a)

/-! ## `wolfSSH_AGENT_Relay` -/

/-- What the callbacks of one `wolfSSH_AGENT_Relay` return: the setup (first and second call), the writes (first and
second) and the read. `cb`: the agent callback is set. -/
structure RelayEnv where
  cb : Bool
  setup1 : Int
  setup2 : Int
  write1 : Int
  write2 : Int
  read : Int

/-- `(word32)sz` of a positive `int`. -/
def toU (n : Int) : Nat := n.toNat

/-- What a call of `wolfSSH_AGENT_Relay` leaves: whether it succeeded, `*msgSz`, `*rspSz`, the callbacks it called, and
the context. -/
structure ROut where
  ok : Bool
  msgSz : Nat
  rspSz : Nat
  evs : List Ev
  ctx : Ctx
  deriving DecidableEq, Repr

/-- The failing end of `wolfSSH_AGENT_Relay` (src/agent.c:1835-1841): every failure past the argument checks is
`WS_AGENT_CXN_FAIL`, kept in the context; the call returns `WS_ERROR`. -/
def relayFail (a : Ctx) (msgSz rspSz : Nat) (evs : List Ev) : ROut :=
  ⟨false, msgSz, rspSz, evs, { a with error := some .cxnFail }⟩

/-- The read of `wolfSSH_AGENT_Relay` (src/agent.c:1822-1831). -/
def relayRead (R : RelayEnv) (a : Ctx) (msgSz rspSz : Nat) (evs : List Ev) : ROut :=
  if R.read > 0 then ⟨true, msgSz, toU R.read, evs ++ [.read rspSz], a⟩
  else relayFail a msgSz rspSz (evs ++ [.read rspSz])

/-- The write of `wolfSSH_AGENT_Relay` (src/agent.c:1793-1820), done again after a new connection if it failed with
`WS_CBIO_ERR_GENERAL` (-1); any other failure is passed over. -/
def relayWrite (R : RelayEnv) (a : Ctx) (msg : Bytes) (rspSz : Nat) (evs : List Ev) : ROut :=
  if R.write1 > 0 then relayRead R a (toU R.write1) rspSz (evs ++ [.write msg])
  else if R.write1 = -1 then
    if R.cb = true ∧ R.setup2 ≠ 0 then relayFail a msg.length rspSz (evs ++ [.write msg, .setup])
    else
      let again : List Ev := evs ++ [.write msg] ++ (if R.cb = true then [.setup] else []) ++ [.write msg]
      if R.write2 > 0 then relayRead R a (toU R.write2) rspSz again
      else relayFail a msg.length rspSz again
  else relayRead R a msg.length rspSz (evs ++ [.write msg])

/-- `wolfSSH_AGENT_Relay` (src/agent.c:1759-1846) with the I/O callback set: `msg` are the `*msgSz` bytes, `rspSz` the
room for the answer. -/
def relay (R : RelayEnv) (a : Ctx) (msg : Bytes) (rspSz : Nat) : ROut :=
  if a.connected = false ∧ R.cb = true then
    if R.setup1 = 0 then relayWrite R { a with connected := true } msg rspSz [.setup]
    else relayFail a msg.length rspSz [.setup]
  else relayWrite R a msg rspSz []

end Wolf.Agent
