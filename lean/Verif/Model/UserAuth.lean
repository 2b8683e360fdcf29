import Verif.Model.OsshCert
/-!
# Server side user authentication (src/internal.c:8388-8760, 9806-10474, 17285-17376)

The handlers of `SSH_MSG_USERAUTH_REQUEST` and `SSH_MSG_USERAUTH_INFO_RESPONSE`, on the bytes of
the payload. The application's callbacks, the results of sending, and the arithmetic of the
signature schemes are inputs (`Env`). `log` is a ghost record of what the outside world sees:
questions put to the application with its answers, signatures checked, messages queued for the
client.

OpenSSH certificates as public key are covered (`Verif/Model/OsshCert.lean`). Not modelled: X.509
certificates as public key (`WOLFSSH_CERTS`), `WOLFSSH_ALLOW_USERAUTH_NONE`, allocation failures,
ML-DSA verifiers (their input length is computed differently, see DESIGN.md).
-/

namespace Wolf.UserAuth
open Wolf Wolf.Wire Wolf.NameList

/-- A C `int` result: `none` is `WS_SUCCESS`. -/
abbrev Ret := Option Err

/-- The answers of `userAuthCb` the handlers distinguish (wolfssh/ssh.h
`WOLFSSH_USERAUTH_*`). `other` stands for all remaining values. -/
inductive Answer where
  | success | successAnother | partialSuccess | rejected | wouldBlock | other
  deriving DecidableEq, Repr

/-- What the application is asked (`authType` and the fields of `WS_UserAuthData` it is shown). -/
inductive Ask where
  | password (pw : Bytes)
  | keyboardSetup
  | keyboard (responses : List Bytes)
  /-- `cert` is what is shown of an OpenSSH certificate (`isOsshCert` and the members after it);
  `algo` and `key` are then those of the certified key -/
  | publicKey (algo key : Bytes) (hasSig : Bool) (sig : Bytes) (cert : Option OsshCert.Shown)
  deriving DecidableEq, Repr

/-- Observable events of a server session. -/
inductive Ev where
  /-- the user authentication callback was called for `user` and answered `ans` -/
  | asked (user : Bytes) (q : Ask) (ans : Answer)
  /-- a signature was checked over `data` -/
  | sigChecked (user algo key sig data : Bytes) (ok : Bool)
  /-- the result callback let the verified key stand (or is not set) -/
  | resultAccepted
  | sentFailure (isPartial : Bool)
  | sentPkOk (algo key : Bytes)
  | sentInfoRequest (prompts : Nat)
  | sentDisconnect
  | sentServiceAccept
  | sentUserAuthSuccess
  /-- a received message passed the filter and was handed to its handler -/
  | acted (msg : Nat)
  deriving DecidableEq, Repr

/-- The fields of `WOLFSSH` the handlers use (wolfssh/internal.h, `struct WOLFSSH`). -/
structure Auth where
  clientState : Nat
  userAuthSeen : Bool
  userName : Bytes
  authId : Nat
  authRequests : Nat
  authFailures : Nat
  maxAuthAttempts : Nat
  kbSetupPending : Bool
  promptCount : Nat
  sessionId : Bytes
  log : List Ev
  deriving DecidableEq, Repr

/-- `CLIENT_USERAUTH_REQUEST_DONE`, `CLIENT_USERAUTH_DONE`, ... (wolfssh/internal.h:1629-1638). -/
def CLIENT_VERSION_DONE : Nat := 1
def CLIENT_KEXINIT_DONE : Nat := 2
def CLIENT_KEXDH_INIT_DONE : Nat := 3
def CLIENT_USERAUTH_REQUEST_DONE : Nat := 4
def CLIENT_USERAUTH_DONE : Nat := 5
def CLIENT_CHANNEL_OPEN_DONE : Nat := 6
def CLIENT_DONE : Nat := 7

/-- Ids of the service and method names and of the signature algorithms
(wolfssh/internal.h:423-535; the numbers are those of `authTable`). -/
def ID_SERVICE_CONNECTION : Nat := 241
def ID_SERVICE_USERAUTH : Nat := 240
def ID_USERAUTH_PASSWORD : Nat := 242
def ID_USERAUTH_KEYBOARD : Nat := 243
def ID_USERAUTH_PUBLICKEY : Nat := 244

/-- `NameIdMap` of the default build with keyboard-interactive: the algorithm rows and the service
and method rows (src/internal.c:3540-3548). -/
def authTable : Table :=
  defaultTable ++
  [⟨ID_SERVICE_USERAUTH, .other, asc "ssh-userauth"⟩,
   ⟨ID_SERVICE_CONNECTION, .other, asc "ssh-connection"⟩,
   ⟨ID_USERAUTH_PASSWORD, .other, asc "password"⟩,
   ⟨ID_USERAUTH_PUBLICKEY, .other, asc "publickey"⟩,
   ⟨ID_USERAUTH_KEYBOARD, .other, asc "keyboard-interactive"⟩]

/-- `WOLFSSH_MAX_PROMPTS` (wolfssh/settings.h:86). -/
def MAX_PROMPTS : Nat := 64

/-- Everything outside the handlers: table and algorithm list of the build, the application, the
transport, the signature arithmetic. -/
structure Env where
  /-- `NameIdMap` -/
  table : Table
  /-- `cannedKeyAlgoClient` -/
  keyAlgos : List Nat
  /-- ids whose verifier is `DoUserAuthRequestRsa` -/
  isRsa : Nat → Bool
  /-- ids verified by `DoUserAuthRequestEcc` / `DoUserAuthRequestEd25519`; for all other ids the
  switch of src/internal.c:10260-10300 answers `WS_INVALID_ALGO_ID` -/
  isEcc : Nat → Bool
  /-- `ctx->userAuthCb`, when set -/
  cb : Option (Bytes → Ask → Answer)
  /-- `promptCount` the application leaves in `authData` on keyboard setup -/
  prompts : Nat
  /-- `ctx->userAuthResultCb`, when set: does it return `WS_SUCCESS` -/
  resultCb : Option Bool
  /-- key decoding and signature arithmetic: id, key blob, signature blob, signed data -/
  crypto : Nat → Bytes → Bytes → Bytes → Bool
  /-- the signature schemes for the authorities of OpenSSH certificates; `none` is a build without
  `WOLFSSH_OSSH_CERTS`. With it, `table` has the rows of `OsshCert.keyTable`. -/
  ossh : Option OsshCert.Crypto := none
  /-- results of `SendUserAuthFailure`, `SendUserAuthPkOk`, and of building and sending the
  information request -/
  sendFailure : Ret
  sendPkOk : Ret
  sendInfo : Ret

/-- A packet was put in the output buffer: the send result is success or `WS_WANT_WRITE`
(`wolfSSH_SendPacket`, src/internal.c:4262-4325: the buffered bytes stay queued). -/
def queued (r : Ret) : Bool := r == none || r == some .wantWrite

/-- Outcome of a handler: undefined behaviour, or a return code, the new `*idx` and state. -/
inductive Out where
  | ub
  | ret (r : Ret) (idx : Nat) (a : Auth)
  deriving DecidableEq, Repr

def Auth.note (a : Auth) (e : Ev) : Auth := { a with log := a.log ++ [e] }

/-- `SendUserAuthFailure` (src/internal.c:19568-19613), effect on the outside world. -/
def sendUserAuthFailure (E : Env) (a : Auth) (isPartial : Bool) : Ret × Auth :=
  (E.sendFailure, if queued E.sendFailure then a.note (.sentFailure isPartial) else a)

/-- `CountUserAuthFailure` (src/internal.c:8391-8404). The result of the disconnect message is
ignored by the C; its sending is recorded. -/
def countUserAuthFailure (a : Auth) : Ret × Auth :=
  let a := { a with authFailures := add32 a.authFailures 1 }
  if a.authFailures ≥ a.maxAuthAttempts then (some .userAuthE, a.note .sentDisconnect)
  else (none, a)

/-- `SendUserAuthFailureCount` (src/internal.c:8410-8424). -/
def sendUserAuthFailureCount (E : Env) (a : Auth) (isPartial count : Bool) : Ret × Auth :=
  let (r, a) := sendUserAuthFailure E a isPartial
  if count then
    match countUserAuthFailure a with
    | (none, a) => (r, a)
    | (some e, a) => (some e, a)
  else (r, a)

/-- `SendUserAuthKeyboardRequest` (src/internal.c:17285-17376). `user` is
`authData->username`. -/
def sendUserAuthKeyboardRequest (E : Env) (a : Auth) (user : Bytes) : Ret × Auth :=
  match E.cb with
  | none => (some .badUsage, a)
  | some cb =>
    let ans := cb user .keyboardSetup
    let a := a.note (.asked user .keyboardSetup ans)
    match ans with
    | .success =>
      if E.prompts > MAX_PROMPTS then (some .badUsage, a)
      else
        let a := { a with promptCount := E.prompts }
        if queued E.sendInfo then
          (E.sendInfo, { a with kbSetupPending := true }.note (.sentInfoRequest E.prompts))
        else (E.sendInfo, a)
    | .wouldBlock => (some .authPending, { a with kbSetupPending := false })
    | _ => sendUserAuthFailureCount E { a with kbSetupPending := false } false true

/-- The loop reading `n` responses (src/internal.c:8566-8571). -/
def getResponses (mem : Bytes) (len : Nat) : Nat → Nat → Res (List Bytes)
  | 0, idx => .ok [] idx
  | n+1, idx =>
    match getStringRef mem len idx with
    | .ub => .ub
    | .err e i => .err e i
    | .ok r idx1 =>
      match deref mem r with
      | none => .ub
      | some bs =>
        match getResponses mem len n idx1 with
        | .ub => .ub
        | .err e i => .err e i
        | .ok rest idx2 => .ok (bs :: rest) idx2

/-- What `DoUserAuthInfoResponse` and `DoUserAuthRequestPassword` do with the callback's answer
(src/internal.c:8574-8643 and 8692-8749): `ret` before the final block, `authFailure`,
`authRejected`, `partialSuccess`, and whether another round was asked for. -/
structure Verdict where
  ret : Ret
  failure : Bool := false
  rejected : Bool := false
  isPartial : Bool := false
  another : Bool := false
  deriving DecidableEq, Repr

/-- Keyboard answers (src/internal.c:8578-8615). -/
def keyboardVerdict : Answer → Verdict
  | .success => { ret := none }
  | .successAnother => { ret := none, another := true }
  | .partialSuccess => { ret := none, isPartial := true }
  | .rejected => { ret := some .userAuthE, failure := true, rejected := true }
  | .wouldBlock => { ret := some .authPending }
  | .other => { ret := none, failure := true }

/-- Password answers (src/internal.c:8696-8729). -/
def passwordVerdict : Answer → Verdict
  | .success => { ret := none }
  | .partialSuccess => { ret := none, isPartial := true }
  | .rejected => { ret := some .userAuthE, failure := true, rejected := true }
  | .wouldBlock => { ret := some .authPending }
  | _ => { ret := none, failure := true }

/-- The common tail of the two handlers (src/internal.c:8621-8641, 8736-8748). `user` is
`authData.username`, used when another keyboard round is requested. -/
def conclude (E : Env) (a : Auth) (user : Bytes) (v : Verdict) : Ret × Auth :=
  if v.failure || v.isPartial then
    let (r, a) := sendUserAuthFailureCount E a v.isPartial true
    (if v.rejected then some .userAuthE else r, a)
  else if v.another then sendUserAuthKeyboardRequest E a user
  else if v.ret = none then (none, { a with clientState := CLIENT_USERAUTH_DONE })
  else (v.ret, a)

/-- `DoUserAuthInfoResponse` (src/internal.c:8491-8645). -/
def doUserAuthInfoResponse (E : Env) (a : Auth) (mem : Bytes) (len idx : Nat) : Out :=
  if len = 0 then .ret (some .badArgument) idx a
  else if a.authId ≠ ID_USERAUTH_KEYBOARD then .ret (some .fatal) idx a
  else
    let a := { a with kbSetupPending := false }
    match getUint32 mem len idx with
    | .ub => .ub
    | .err e _ => .ret (some e) idx a
    | .ok count begin_ =>
      if a.promptCount ≠ count then
        let (r, a) := sendUserAuthFailureCount E a false true
        .ret r idx a
      else
        match getResponses mem len count begin_ with
        | .ub => .ub
        | .err e _ => .ret (some e) idx a
        | .ok responses begin_ =>
          match E.cb with
          | none =>
            let (r, a) := conclude E a a.userName { ret := none, failure := true }
            .ret r begin_ a
          | some cb =>
            let ans := cb a.userName (.keyboard responses)
            let a := a.note (.asked a.userName (.keyboard responses) ans)
            let v := keyboardVerdict ans
            let (r, a) := conclude E a a.userName v
            .ret r (if v.ret = none then begin_ else idx) a

/-- `DoUserAuthRequestPassword` (src/internal.c:8648-8752). -/
def doUserAuthRequestPassword (E : Env) (a : Auth) (user mem : Bytes) (len idx : Nat) : Out :=
  match getBoolean mem len idx with
  | .ub => .ub
  | .err e _ => .ret (some e) idx a
  | .ok hasNew i1 =>
    match getStringRef mem len i1 with
    | .ub => .ub
    | .err e _ => .ret (some e) idx a
    | .ok pw i2 =>
      if hasNew ≠ 0 then
        match getStringRef mem len i2 with
        | .ub => .ub
        | .err e _ => .ret (some e) idx a
        | .ok _ i3 =>
          let (r, a) := conclude E a user { ret := none, failure := true }
          .ret r i3 a
      else
        match E.cb with
        | none =>
          let (r, a) := conclude E a user { ret := none, failure := true }
          .ret r i2 a
        | some cb =>
          match deref mem pw with
          | none => .ub
          | some pwBytes =>
            let ans := cb user (.password pwBytes)
            let a := a.note (.asked user (.password pwBytes) ans)
            let v := passwordVerdict ans
            let (r, a) := conclude E a user v
            .ret r (if v.ret = none then i2 else idx) a

/-- The memory behind a string pointer (NULL for an empty string). -/
def view (mem : Bytes) (r : StrRef) : Bytes :=
  match r.off with
  | none => []
  | some o => mem.drop o

/-- The leading string of a blob equals `name`: the type checks with which every signature
verifier starts (src/internal.c:8822-8836 and 8870-8881 RSA with `GetStringRef`,
9153-9166/9214-9229 ECC and 9690-9702/9717-9732 Ed25519 with `GetSize`). An empty type never
equals an algorithm name of the table. -/
def leadsWith (blob : Bytes) (sz : Nat) (name : Bytes) : Option Bool :=
  match getStringRef blob sz 0 with
  | .ub => none
  | .err _ _ => some false
  | .ok r _ => (deref blob r).map (fun t => t == name)

/-- The verifiers (src/internal.c:8777-8960 RSA, 9106-9290 ECC, 9651-9803 Ed25519): the key's
type, the signature's type, then the arithmetic. `none` is undefined behaviour. -/
def verifySig (E : Env) (id : Nat) (algo : Bytes) (keyMem : Bytes) (keySz : Nat)
    (sigMem : Bytes) (sigSz : Nat) (data : Bytes) : Option Bool :=
  let keyName : Bytes := if E.isRsa id then [115,115,104,45,114,115,97] else algo
  if E.isRsa id || E.isEcc id then
    match leadsWith keyMem keySz keyName with
    | none => none
    | some false => some false
    | some true =>
      match leadsWith sigMem sigSz algo with
      | none => none
      | some false => some false
      | some true => some (E.crypto id (keyMem.take keySz) (sigMem.take sigSz) data)
  else some false

/-- What is hashed or fed to the verifier (src/internal.c:10228-10247, 9745-9781):
`uint32 sessionIdSz`, `sessionId`, the message id, then `dataToSignSz` bytes of the payload. -/
def signedData (a : Auth) (mem : Bytes) (dataToSignSz : Nat) : Bytes :=
  c32toa a.sessionId.length ++ a.sessionId ++ [50] ++ mem.take dataToSignSz

/-- Parsed body of a public key request (src/internal.c:9846-9864). -/
structure PkBody where
  hasSig : Bool
  algo : StrRef
  blob : StrRef
  sig : StrRef
  deriving DecidableEq, Repr

/-- src/internal.c:9846-9864. -/
def parsePk (mem : Bytes) (len idx : Nat) : Res PkBody :=
  match getBoolean mem len idx with
  | .ub => .ub
  | .err e i => .err e i
  | .ok hasSig i1 =>
    match getStringRef mem len i1 with
    | .ub => .ub
    | .err e i => .err e i
    | .ok algo i2 =>
      match getStringRef mem len i2 with
      | .ub => .ub
      | .err e i => .err e i
      | .ok blob i3 =>
        if hasSig ≠ 0 then
          match getStringRef mem len i3 with
          | .ub => .ub
          | .err e i => .err e i
          | .ok sig i4 => .ok ⟨true, algo, blob, sig⟩ i4
        else .ok ⟨false, algo, blob, ⟨none, 0⟩⟩ i3

/-- The checks of the inner formats (src/internal.c:9884-9909). -/
def parsePkInner (mem : Bytes) (b : PkBody) : Res Unit :=
  match getStringRef (view mem b.blob) b.blob.sz 0 with
  | .ub => .ub
  | .err e i => .err e i
  | .ok _ _ =>
    if b.hasSig then
      match getStringRef (view mem b.sig) b.sig.sz 0 with
      | .ub => .ub
      | .err e i => .err e i
      | .ok _ i1 =>
        match getStringRef (view mem b.sig) b.sig.sz i1 with
        | .ub => .ub
        | .err e i => .err e i
        | .ok _ i2 => .ok () i2
    else .ok () 0

/-- `if (authFailure) ...` at the end of the public key handler (src/internal.c:10324-10335). -/
def pkFail (E : Env) (a : Auth) (rejected : Bool) : Ret × Auth :=
  let (r, a) := sendUserAuthFailureCount E a false true
  (if rejected then some .userAuthE else r, a)

/-- The algorithm name inside the signature, when there is one (`sigAlgo`,
src/internal.c:9891-9900); the outer `none` is a read outside the memory. -/
def sigName (mem : Bytes) (b : PkBody) : Option (Option Bytes) :=
  if b.hasSig then
    match getStringRef (view mem b.sig) b.sig.sz 0 with
    | .ok r _ => (deref (view mem b.sig) r).map some
    | _ => none
  else some none

/-- The key in question: `pkTypeId`, `publicKeyType`, and `publicKey` with its size, as they are
when the callback is called. -/
structure Subject where
  id : Nat
  algo : Bytes
  mem : Bytes
  sz : Nat
  key : Bytes
  cert : Option OsshCert.Shown
  deriving DecidableEq, Repr

/-- Outcome of looking at the offered blob. -/
inductive Offered where
  | ub
  | rejected
  | key (s : Subject)
  deriving DecidableEq, Repr

/-- The plain key, or the key a certificate certifies (src/internal.c:9955-10101). -/
def pkSubject (E : Env) (mem : Bytes) (b : PkBody) (id : Nat) (algo key : Bytes) : Offered :=
  match E.ossh with
  | none => .key ⟨id, algo, view mem b.blob, b.blob.sz, key, none⟩
  | some K =>
    if OsshCert.isCertId id then
      match sigName mem b with
      | none => .ub
      | some sa =>
        match OsshCert.certStep K id (view mem b.blob) b.blob.sz sa with
        | .ub => .ub
        | .rejected => .rejected
        | .accepted sid sh => .key ⟨sid, sh.keyType, sh.key, sh.key.length, sh.key, some sh⟩
    else .key ⟨id, algo, view mem b.blob, b.blob.sz, key, none⟩

/-- The signature step (src/internal.c:10188-10323) after the callback said success
(`isPartial = false`) or partial success. -/
def pkVerify (E : Env) (a : Auth) (user mem : Bytes) (len : Nat) (s : Subject) (b : PkBody)
    (sig : Bytes) (isPartial : Bool) : Option (Ret × Auth) :=
  let data := signedData a mem (sub32 (sub32 len b.sig.sz) 4)
  match verifySig E s.id s.algo s.mem s.sz (view mem b.sig) b.sig.sz data with
  | none => none
  | some ok =>
    let a := a.note (.sigChecked user s.algo s.key sig data ok)
    if ok = false then some (pkFail E a false)
    else if E.resultCb = some false then some (pkFail E a false)
    else
      let a := a.note .resultAccepted
      if isPartial then some (sendUserAuthFailureCount E a true true)
      else some (none, { a with clientState := CLIENT_USERAUTH_DONE })

/-- The callback and what follows its answer (src/internal.c:10103-10340). `algo` and `key` are the
fields of the request, which the reply to a request without signature repeats. -/
def pkAnswer (E : Env) (a : Auth) (user mem : Bytes) (len idx : Nat) (s : Subject) (b : PkBody)
    (algo key sig : Bytes) : Out :=
  match E.cb with
  | none =>
    let (r, a) := pkFail E a false
    .ret r idx a
  | some cb =>
    let ans := cb user (.publicKey s.algo s.key b.hasSig sig s.cert)
    let a := a.note (.asked user (.publicKey s.algo s.key b.hasSig sig s.cert) ans)
    match ans with
    | .wouldBlock => .ret (some .authPending) idx a
    | .rejected =>
      let (r, a) := pkFail E a true
      .ret r idx a
    | .success =>
      if b.hasSig then
        match pkVerify E a user mem len s b sig false with
        | none => .ub
        | some (r, a) => .ret r idx a
      else .ret E.sendPkOk idx (if queued E.sendPkOk then a.note (.sentPkOk algo key) else a)
    | .partialSuccess =>
      if b.hasSig then
        match pkVerify E a user mem len s b sig true with
        | none => .ub
        | some (r, a) => .ret r idx a
      else .ret E.sendPkOk idx (if queued E.sendPkOk then a.note (.sentPkOk algo key) else a)
    | _ =>
      let (r, a) := pkFail E a false
      .ret r idx a

/-- `DoUserAuthRequestPublicKey` (src/internal.c:9808-10348) without X.509 certificates. The
signed bytes start at the beginning of the payload (`dataToSign = buf + *idx`, 10447). -/
def doUserAuthRequestPublicKey (E : Env) (a : Auth) (user mem : Bytes) (len idx : Nat) : Out :=
  match parsePk mem len idx with
  | .ub => .ub
  | .err e _ => .ret (some e) idx a
  | .ok b idx' =>
    match parsePkInner mem b with
    | .ub => .ub
    | .err e _ => .ret (some e) idx' a
    | .ok _ _ =>
      match deref mem b.algo, deref mem b.blob, deref mem b.sig with
      | some algo, some key, some sig =>
        let id := nameToId E.table algo
        if id = ID_UNKNOWN ∨ id ∉ E.keyAlgos then
          let (r, a) := pkFail E a false
          .ret r idx' a
        else
          match pkSubject E mem b id algo key with
          | .ub => .ub
          | .rejected =>
            let (r, a) := pkFail E a false
            .ret r idx' a
          | .key s => pkAnswer E a user mem len idx' s b algo key sig
      | _, _, _ => .ub

/-- Binding of the user name (src/internal.c:10394-10411 and `wolfSSH_SetUsernameRaw`,
src/ssh.c:1726-1753). -/
def bindUser (a : Auth) (user : Bytes) : Ret × Auth :=
  if a.userAuthSeen = false then
    if user.length = 0 then (some .badArgument, a)
    else (none, { a with userName := user, userAuthSeen := true })
  else if user.length ≠ a.userName.length ∨ user ≠ a.userName then
    (some .invalidState, a.note .sentDisconnect)
  else (none, a)

/-- The dispatch on the method (src/internal.c:10427-10467). `begin_` is the cursor after the
three names. -/
def dispatchMethod (E : Env) (a : Auth) (user mem : Bytes) (len begin_ authNameId : Nat) : Out :=
  if authNameId = ID_USERAUTH_PASSWORD then doUserAuthRequestPassword E a user mem len begin_
  else if authNameId = ID_USERAUTH_KEYBOARD then
    let (r, a) := sendUserAuthKeyboardRequest E a user
    .ret r begin_ a
  else if authNameId = ID_USERAUTH_PUBLICKEY then
    doUserAuthRequestPublicKey E a user mem len begin_
  else
    let countIt := !(authNameId == ID_NONE && a.authRequests == 1)
    let (r, a) := sendUserAuthFailureCount E a false countIt
    .ret r len a

/-- `DoUserAuthRequest` (src/internal.c:10352-10473), called with `*idx = 0`. -/
def doUserAuthRequest (E : Env) (a : Auth) (mem : Bytes) (len : Nat) : Out :=
  if len = 0 then .ret (some .badArgument) 0 a
  else
    match getStringRef mem len 0 with
    | .ub => .ub
    | .err e _ => .ret (some e) 0 a
    | .ok userR i1 =>
      match getStringRef mem len i1 with
      | .ub => .ub
      | .err e _ => .ret (some e) 0 a
      | .ok serviceR i2 =>
        match deref mem userR, deref mem serviceR with
        | some user, some service =>
          if nameToId E.table service ≠ ID_SERVICE_CONNECTION then
            let (r, a) := sendUserAuthFailureCount E a false true
            .ret r len a
          else
            match getStringRef mem len i2 with
            | .ub => .ub
            | .err e _ => .ret (some e) 0 a
            | .ok methodR i3 =>
              match deref mem methodR with
              | none => .ub
              | some method =>
                match bindUser a user with
                | (some e, a) => .ret (some e) 0 a
                | (none, a) =>
                  let authNameId := nameToId E.table method
                  let a := { a with authId := authNameId, authRequests := add32 a.authRequests 1 }
                  if a.kbSetupPending then
                    match countUserAuthFailure { a with kbSetupPending := false } with
                    | (some e, a) => .ret (some e) len a
                    | (none, a) => dispatchMethod E a user mem len i3 authNameId
                  else dispatchMethod E a user mem len i3 authNameId
        | _, _ => .ub

end Wolf.UserAuth
