import Verif.Model.Gex
import Verif.Model.Kex
import Verif.Model.Receive
import Verif.Model.UserAuth
/-!
# Client side user authentication (src/internal.c:8285-8386, 10476-10700, 17137-17200, 17379-17700, 17880-18160, 18420-18575, 18820-19520)

What a client sends to authenticate: the choice of the method, the request of each method with the signature of the
public key method, the answers to keyboard-interactive prompts; and the messages of the server these come from: the list of
methods that can continue, the prompts, the list of signature algorithms. And of the server the functions writing those three
messages (src/internal.c:17031-17088, 17187-17283, 19521-19613).

The application's callback, the loading of private keys and the arithmetic of the signature schemes, the packet layer
(`PreparePacket`, `BundlePacket`, `wolfSSH_SendPacket`: `Verif/Model/Packet.lean`) are inputs. `log` is a ghost record of what
the outside world sees. A build with `WOLFSSH_KEYBOARD_INTERACTIVE` and `WOLFSSH_OSSH_CERTS`. Not modelled: X.509
certificates, ML-DSA and composite keys, the agent, `WOLFSSH_TPM`, allocation failures.
-/

namespace Wolf.ClientAuth
open Wolf Wolf.Wire Wolf.NameList Wolf.OsshCert
open Wolf.UserAuth (Ret queued ID_SERVICE_CONNECTION ID_USERAUTH_PASSWORD ID_USERAUTH_KEYBOARD ID_USERAUTH_PUBLICKEY)
open Wolf.Receive (MAX_PACKET_SZ)

/-- `ID_EXTINFO_SERVER_SIG_ALGS` (wolfssh/internal.h:527). -/
def ID_EXTINFO_SERVER_SIG_ALGS : Nat := 249

/-- `NameIdMap` (src/internal.c:3354-3563): the rows of the server's model, the certificates and the extension. -/
def table : Table :=
  UserAuth.authTable ++
  [⟨ID_OSSH_CERT_RSA, .key, asc "ssh-rsa-cert-v01@openssh.com"⟩,
   ⟨ID_OSSH_CERT_RSA, .key, asc "rsa-sha2-256-cert-v01@openssh.com"⟩,
   ⟨ID_OSSH_CERT_RSA, .key, asc "rsa-sha2-512-cert-v01@openssh.com"⟩,
   ⟨ID_OSSH_CERT_ECDSA_SHA2_NISTP256, .key, asc "ecdsa-sha2-nistp256-cert-v01@openssh.com"⟩,
   ⟨ID_OSSH_CERT_ECDSA_SHA2_NISTP384, .key, asc "ecdsa-sha2-nistp384-cert-v01@openssh.com"⟩,
   ⟨ID_OSSH_CERT_ECDSA_SHA2_NISTP521, .key, asc "ecdsa-sha2-nistp521-cert-v01@openssh.com"⟩,
   ⟨ID_OSSH_CERT_ED25519, .key, asc "ssh-ed25519-cert-v01@openssh.com"⟩,
   ⟨ID_EXTINFO_SERVER_SIG_ALGS, .other, asc "server-sig-algs"⟩]

/-- `cannedKeyAlgoClient` (src/internal.c:4697-4796) without the algorithms left out. -/
def cannedKeyAlgoClient : List Nat :=
  [ID_OSSH_CERT_ECDSA_SHA2_NISTP521, ID_OSSH_CERT_ECDSA_SHA2_NISTP384, ID_OSSH_CERT_ECDSA_SHA2_NISTP256,
   ID_OSSH_CERT_ED25519, ID_OSSH_CERT_RSA, ID_ECDSA_SHA2_NISTP521, ID_ECDSA_SHA2_NISTP384, ID_ECDSA_SHA2_NISTP256,
   ID_ED25519, ID_RSA_SHA2_512, ID_RSA_SHA2_256]

/-- A set of methods, the bits `WOLFSSH_USERAUTH_PASSWORD`, `_PUBLICKEY`, `_KEYBOARD` (wolfssh/ssh.h). -/
structure Types where
  password : Bool := false
  publicKey : Bool := false
  keyboard : Bool := false
  deriving DecidableEq, Repr

/-- A key the application names (`WS_UserAuthData_PublicKey`): its type, its blob, and what its private key gives: the size
of a signature once loaded (`wc_RsaEncryptSize`, `wc_ecc_sig_size`, `wc_ed25519_sig_size`), by algorithm a signature of
some bytes, as one string (RSA, Ed25519) or as two numbers (ECDSA). -/
structure Offer where
  type : Bytes
  blob : Bytes
  load : Nat → Except Err Nat
  sign : Nat → Bytes → Except Err Bytes
  signRs : Nat → Bytes → Except Err (Bytes × Bytes)

/-- An information request as the application is shown it: texts are C strings (src/internal.c:19217-19233). -/
structure Shown where
  name : Bytes
  instruction : Bytes
  language : Bytes
  prompts : List (Bytes × Byte)
  deriving DecidableEq, Repr

/-- The application and the packet layer at one step. An answer `none` is anything but `WOLFSSH_USERAUTH_SUCCESS`. -/
structure Env where
  /-- `ctx->userAuthCb` is set -/
  set : Bool
  password : Option Bytes
  key : Option Offer
  keyboard : Shown → Option (List Bytes)
  /-- result of `PreparePacket` -/
  room : Ret
  /-- result of `BundlePacket` and `wolfSSH_SendPacket` -/
  send : Ret

/-- What the outside world sees. -/
inductive Ev where
  | askedPassword
  | askedKey
  | askedKeyboard (p : Shown)
  /-- a packet: the payload, and what `PreparePacket` was told -/
  | sent (est : Nat) (payload : Bytes)
  deriving DecidableEq, Repr

/-- The fields of `WOLFSSH` in use (wolfssh/internal.h:1027, 1135-1139, 1217). -/
structure Cl where
  userName : Bytes
  sessionId : Bytes
  peerSigId : List Nat := []
  pkDone : Bool := false
  kbAttempts : Nat := 0
  log : List Ev := []
  deriving DecidableEq, Repr

def Cl.note (s : Cl) (e : Ev) : Cl := { s with log := s.log ++ [e] }

/-- A length and the bytes, as all builders write strings (e.g. src/internal.c:19458-19461). -/
def str (b : Bytes) : Bytes := c32toa b.length ++ b

/-- The method chosen, with what goes into its request. -/
inductive Method where
  | none
  | password (pw : Bytes)
  | keyboard
  | publicKey (o : Offer)

/-- `authId` (src/internal.c:19316). -/
def Method.id : Method → Nat
  | .none => ID_NONE
  | .password _ => ID_USERAUTH_PASSWORD
  | .keyboard => ID_USERAUTH_KEYBOARD
  | .publicKey _ => ID_USERAUTH_PUBLICKEY

/-- The question for a key (src/internal.c:19387-19400). -/
def chooseKey (E : Env) (s : Cl) : Except Err Method × Cl :=
  let s := s.note .askedKey
  match E.key with
  | some o => (.ok (.publicKey o), s)
  | none => (.error .fatal, s)

/-- The choice of the method (src/internal.c:19346-19410): keyboard-interactive before all others and without asking, then
the password, then a key, the latter also when there is no password. -/
def choose (E : Env) (s : Cl) (t : Types) : Except Err Method × Cl :=
  if t.keyboard then (.ok .keyboard, s)
  else if E.set = false then (.error .fatal, s)
  else if t.password then
    let s := s.note .askedPassword
    match E.password with
    | some pw => (.ok (.password pw), s)
    | none => if t.publicKey then chooseKey E s else (.error .fatal, s)
  else if t.publicKey then chooseKey E s
  else (.ok .none, s)

/-- `WS_KeySignature`, the members in use (wolfssh/internal.h). `hasSig` is `authData.sf.publicKey.hasSignature`. -/
structure KeySig where
  keyId : Nat := ID_NONE
  sigId : Nat := ID_NONE
  sigName : Bytes := []
  sigSz : Nat := 0
  hasSig : Bool := false
  deriving DecidableEq, Repr

/-- `OsshRsaCertSigId` (src/ossh.c:789-814). -/
def osshRsaCertSigId (peer : List Nat) : Nat :=
  if ID_RSA_SHA2_512 ∈ peer then ID_RSA_SHA2_512 else ID_RSA_SHA2_256

/-- The signature ids a key type allows (src/internal.c:18845-18861). -/
def algosOf (keyId : Nat) : List Nat :=
  if keyId = ID_SSH_RSA then [ID_RSA_SHA2_512, ID_RSA_SHA2_256] else [keyId]

/-- The name under which the key is offered (src/internal.c:18869-18893). -/
def sigNameOf (peer : List Nat) (keyId matchId : Nat) : Bytes :=
  if keyId = ID_OSSH_CERT_RSA then
    if osshRsaCertSigId peer = ID_RSA_SHA2_512 then asc "rsa-sha2-512-cert-v01@openssh.com"
    else asc "rsa-sha2-256-cert-v01@openssh.com"
  else Kex.idToName table matchId

/-- What the signature adds to the payload besides itself and the key type (src/internal.c:17484-17488, 17943-17948,
18454-18459), for the key types handled (src/internal.c:18903-18972). -/
def sigExtra (keyId : Nat) : Option Nat :=
  if keyId = ID_SSH_RSA ∨ keyId = ID_OSSH_CERT_RSA then some (4 * 3)
  else if keyId = ID_ECDSA_SHA2_NISTP256 ∨ keyId = ID_ECDSA_SHA2_NISTP384 ∨ keyId = ID_ECDSA_SHA2_NISTP521 ∨
    keyId = ID_OSSH_CERT_ECDSA_SHA2_NISTP256 ∨ keyId = ID_OSSH_CERT_ECDSA_SHA2_NISTP384 ∨
    keyId = ID_OSSH_CERT_ECDSA_SHA2_NISTP521 then some (4 * 5)
  else if keyId = ID_ED25519 ∨ keyId = ID_OSSH_CERT_ED25519 then some (4 * 3)
  else none

/-- `PrepareUserAuthRequestPublicKey` (src/internal.c:18827-18985) with `PrepareUserAuthRequestRsa`, `-Ecc`, `-Ed25519`
(src/internal.c:17448-17495, 17880-17957, 18422-18466): the new payload size and the key's data. -/
def preparePublicKey (s : Cl) (sz : Nat) (o : Offer) : Except Err (Nat × KeySig) :=
  let keyId := nameToId table o.type
  let matchId := matchIdLists .client (algosOf keyId) s.peerSigId
  if matchId = ID_UNKNOWN then .error .matchKeyAlgo
  else
    let sigName := sigNameOf s.peerSigId keyId matchId
    let sz := (sz + 1 + 4 * 2 + sigName.length + o.blob.length) % 2^32
    match sigExtra keyId with
    | none => .error .invalidAlgoId
    | some x =>
      match o.load keyId with
      | .error e => .error e
      | .ok sigSz => .ok ((sz + x + sigSz + o.type.length) % 2^32, ⟨keyId, matchId, sigName, sigSz, true⟩)

/-- `PrepareUserAuthRequestPassword` (src/internal.c:17137-17160). -/
def preparePassword (sz : Nat) (pw : Bytes) : Except Err Nat :=
  if MAX_PACKET_SZ < sz ∨ MAX_PACKET_SZ - sz < 1 + 4 ∨ MAX_PACKET_SZ - sz - (1 + 4) < pw.length then .error .bufferE
  else .ok (sz + (1 + 4) + pw.length)

/-- The size of the payload (src/internal.c:19417-19442). A second public key request of a session is not prepared. -/
def prepare (s : Cl) (m : Method) : Except Err (Nat × KeySig) × Cl :=
  let sz := (1 + 4 * 3 + s.userName.length + (Kex.idToName table ID_SERVICE_CONNECTION).length +
    (Kex.idToName table m.id).length) % 2^32
  match m with
  | .password pw =>
    match preparePassword sz pw with
    | .error e => (.error e, s)
    | .ok sz => (.ok (sz, {}), s)
  | .publicKey o =>
    if s.pkDone = false then (preparePublicKey s sz o, { s with pkDone := true })
    else (.ok (sz, {}), s)
  | _ => (.ok (sz, {}), s)

/-- What is signed: the session id and the message so far (src/internal.c:17546-17563, 17999-18014, 18510-18520). -/
def checkData (s : Cl) (msg : Bytes) : Bytes := c32toa s.sessionId.length ++ s.sessionId ++ msg

/-- `BuildUserAuthRequestRsa` (src/internal.c:17498-17691): the signature block, for the message so far. The signature has
the size announced when loading (17644) and is verified before use. -/
def buildRsa (s : Cl) (o : Offer) (k : KeySig) (msg : Bytes) : Except Err Bytes :=
  let eff := if k.sigId = ID_OSSH_CERT_RSA then osshRsaCertSigId s.peerSigId else k.sigId
  match (if eff = ID_RSA_SHA2_256 then some (asc "rsa-sha2-256")
         else if eff = ID_RSA_SHA2_512 then some (asc "rsa-sha2-512")
         else if eff = ID_SSH_RSA then some (asc "ssh-rsa") else none) with
  | none => .error .invalidAlgoId
  | some names =>
    match o.sign eff (checkData s msg) with
    | .error e => .error e
    | .ok sig =>
      if sig.length ≠ k.sigSz ∨ sig.length = 0 then .error .rsaE
      else .ok (c32toa (k.sigSz + names.length + 4 * 2) ++ c32toa names.length ++ names ++ c32toa k.sigSz ++ sig)

/-- `BuildUserAuthRequestEcc` (src/internal.c:17959-18160). -/
def buildEcc (s : Cl) (o : Offer) (k : KeySig) (msg : Bytes) : Except Err Bytes :=
  match o.signRs k.sigId (checkData s msg) with
  | .error e => .error e
  | .ok (r, s') =>
    let rPad := Gex.signPad r
    let sPad := Gex.signPad s'
    match (if k.sigId = ID_ECDSA_SHA2_NISTP256 ∨ k.sigId = ID_OSSH_CERT_ECDSA_SHA2_NISTP256 then some (asc "ecdsa-sha2-nistp256")
           else if k.sigId = ID_ECDSA_SHA2_NISTP384 ∨ k.sigId = ID_OSSH_CERT_ECDSA_SHA2_NISTP384 then
             some (asc "ecdsa-sha2-nistp384")
           else if k.sigId = ID_ECDSA_SHA2_NISTP521 ∨ k.sigId = ID_OSSH_CERT_ECDSA_SHA2_NISTP521 then
             some (asc "ecdsa-sha2-nistp521")
           else none) with
    | none => .error .invalidAlgoId
    | some names =>
      .ok (c32toa (r.length + rPad.length + s'.length + sPad.length + names.length + 4 * 4) ++
        c32toa names.length ++ names ++
        c32toa (r.length + rPad.length + s'.length + sPad.length + 4 * 2) ++
        c32toa (r.length + rPad.length) ++ rPad ++ r ++ c32toa (s'.length + sPad.length) ++ sPad ++ s')

/-- `BuildUserAuthRequestEd25519` (src/internal.c:18469-18575). -/
def buildEd25519 (s : Cl) (o : Offer) (k : KeySig) (msg : Bytes) : Except Err Bytes :=
  match o.sign k.sigId (checkData s msg) with
  | .error e => .error e
  | .ok sig =>
    let name := asc "ssh-ed25519"
    .ok (c32toa (4 * 2 + name.length + sig.length) ++ c32toa name.length ++ name ++ c32toa sig.length ++ sig)

/-- `BuildUserAuthRequestPublicKey` (src/internal.c:18988-19185): what follows the method, `msg` being the message so far. -/
def buildPublicKey (s : Cl) (o : Offer) (k : KeySig) (msg : Bytes) : Except Err Bytes :=
  if k.hasSig = false then .error .invalidAlgoId
  else if k.sigId = ID_SSH_RSA ∨ k.sigId = ID_RSA_SHA2_256 ∨ k.sigId = ID_RSA_SHA2_512 ∨ k.sigId = ID_OSSH_CERT_RSA then
    let body := [1] ++ str k.sigName ++ str o.blob
    match buildRsa s o k (msg ++ body) with
    | .error e => .error e
    | .ok sig => .ok (body ++ sig)
  else if k.sigId = ID_ECDSA_SHA2_NISTP256 ∨ k.sigId = ID_ECDSA_SHA2_NISTP384 ∨ k.sigId = ID_ECDSA_SHA2_NISTP521 ∨
      k.sigId = ID_OSSH_CERT_ECDSA_SHA2_NISTP256 ∨ k.sigId = ID_OSSH_CERT_ECDSA_SHA2_NISTP384 ∨
      k.sigId = ID_OSSH_CERT_ECDSA_SHA2_NISTP521 then
    let body := [1] ++ str o.type ++ str o.blob
    match buildEcc s o k (msg ++ body) with
    | .error e => .error e
    | .ok sig => .ok (body ++ sig)
  else if k.sigId = ID_ED25519 ∨ k.sigId = ID_OSSH_CERT_ED25519 then
    let body := [1] ++ str o.type ++ str o.blob
    match buildEd25519 s o k (msg ++ body) with
    | .error e => .error e
    | .ok sig => .ok (body ++ sig)
  else .error .invalidAlgoId

/-- The part common to all requests (src/internal.c:19456-19472). -/
def requestHead (s : Cl) (m : Method) : Bytes :=
  [50] ++ str s.userName ++ str (Kex.idToName table ID_SERVICE_CONNECTION) ++ str (Kex.idToName table m.id)

/-- The payload (src/internal.c:19446-19490) with `BuildUserAuthRequestPassword` (src/internal.c:17163-17185). -/
def build (s : Cl) (m : Method) (k : KeySig) : Except Err Bytes × Cl :=
  let head := requestHead s m
  match m with
  | .none => (.ok head, s)
  | .password pw => (.ok (head ++ [0] ++ str pw), s)
  | .keyboard => (.ok (head ++ c32toa 0 ++ c32toa 0), { s with kbAttempts := (s.kbAttempts + 1) % 256 })
  | .publicKey o =>
    match buildPublicKey s o k head with
    | .error e => (.error e, s)
    | .ok b => (.ok (head ++ b), s)

/-- A packet to the packet layer. -/
def emit (E : Env) (s : Cl) (est : Nat) (payload : Bytes) : Ret × Cl :=
  (E.send, if queued E.send then s.note (.sent est payload) else s)

/-- `SendUserAuthRequest` (src/internal.c:19306-19517). -/
def sendUserAuthRequest (E : Env) (s : Cl) (t : Types) : Ret × Cl :=
  match choose E s t with
  | (.error e, s) => (some e, s)
  | (.ok m, s) =>
    match prepare s m with
    | (.error e, s) => (some e, s)
    | (.ok (est, k), s) =>
      match E.room with
      | some e => (some e, s)
      | none =>
        match build s m k with
        | (.error e, s) => (some e, s)
        | (.ok payload, s) => emit E s est payload

/-- The loops of `DoUserAuthFailure` over the list (src/internal.c:10503-10535); `supportedAuth` has the three methods and
an empty slot (src/internal.c:1630-1634). -/
def typesOf (attempts : Nat) : List Nat → Types
  | [] => {}
  | id :: ids =>
    let t := typesOf attempts ids
    if id = ID_USERAUTH_PASSWORD then { t with password := true }
    else if id = ID_USERAUTH_KEYBOARD then
      if attempts < 3 then { t with keyboard := true } else t
    else if id = ID_USERAUTH_PUBLICKEY then { t with publicKey := true }
    else t

/-- `DoUserAuthFailure` (src/internal.c:10476-10548). `none` is undefined behaviour. -/
def doUserAuthFailure (E : Env) (s : Cl) (mem : Bytes) (len : Nat) : Option (Ret × Cl) :=
  if len = 0 then some (some .badArgument, s)
  else
    match getNameList table 4 mem len 0 with
    | .ub => none
    | .err e _ => some (some e, s)
    | .ok ids i1 =>
      match getBoolean mem len i1 with
      | .ub => none
      | .err e _ => some (some e, s)
      | .ok _ _ =>
        let t := typesOf s.kbAttempts ids
        if t = {} then some (some .userAuthE, s)
        else some (sendUserAuthRequest E s t)

/-- `WSTRLEN` and the bytes before it. -/
def cstr (b : Bytes) : Bytes := b.takeWhile (· ≠ 0)

/-- The prompts (src/internal.c:10663-10672). -/
def getPrompts (mem : Bytes) (len : Nat) : Nat → Nat → Res (List (Bytes × Byte))
  | 0, idx => .ok [] idx
  | n+1, idx =>
    andThen (getStringAlloc mem len idx) fun p i1 =>
    andThen (getBoolean mem len i1) fun e i2 =>
    andThen (getPrompts mem len n i2) fun rest i3 => .ok ((cstr p, e) :: rest) i3

/-- The reading part of `DoUserAuthInfoRequest` (src/internal.c:10600-10676). -/
def getInfo (mem : Bytes) (len : Nat) : Res Shown :=
  andThen (getStringAlloc mem len 0) fun name i1 =>
  andThen (getStringAlloc mem len i1) fun instruction i2 =>
  andThen (getStringAlloc mem len i2) fun language i3 =>
  andThen (getUint32 mem len i3) fun n i4 =>
  if n > UserAuth.MAX_PROMPTS then .err .userAuthE i4
  else
    andThen (getPrompts mem len n i4) fun ps i5 =>
    .ok ⟨cstr name, cstr instruction, cstr language, ps⟩ i5

/-- The strings of an answer (src/internal.c:17426-17434). -/
def strs : List Bytes → Bytes
  | [] => []
  | r :: rs => str r ++ strs rs

/-- What the answers add to the payload size (src/internal.c:17392-17396). -/
def strsSz : List Bytes → Nat
  | [] => 0
  | r :: rs => 4 + r.length + strsSz rs

/-- `SendUserAuthKeyboardResponse` (src/internal.c:19191-19303) with `PrepareUserAuthResponseKeyboard` and
`BuildUserAuthResponseKeyboard` (src/internal.c:17379-17442). -/
def sendUserAuthKeyboardResponse (E : Env) (s : Cl) (p : Shown) : Ret × Cl :=
  if E.set = false then (some .invalidState, s)
  else
    let s := s.note (.askedKeyboard p)
    match E.keyboard p with
    | none => (some .fatal, s)
    | some rs =>
      if p.prompts.length ≠ rs.length then (some .userAuthE, s)
      else
        let est := (1 + 4 + strsSz rs) % 2^32
        match E.room with
        | some e => (some e, s)
        | none => emit E s est ([61] ++ c32toa rs.length ++ strs rs)

/-- `DoUserAuthInfoRequest` (src/internal.c:10600-10700). -/
def doUserAuthInfoRequest (E : Env) (s : Cl) (mem : Bytes) (len : Nat) : Option (Ret × Cl) :=
  if len = 0 then some (some .badArgument, s)
  else
    match getInfo mem len with
    | .ub => none
    | .err e _ => some (some e, s)
    | .ok p _ => some (sendUserAuthKeyboardResponse E s p)

/-- `DoExtInfoServerSigAlgs` (src/internal.c:8306-8354). -/
def doServerSigAlgs (s : Cl) (names : Bytes) : Option (Ret × Cl) :=
  match getNameListRaw table MAX_NAMELIST_CNT names names.length with
  | .ub => none
  | .err e => some (some e, s)
  | .ok ids =>
    if ids.length = 0 then some (none, { s with peerSigId := [] })
    else if matchIdLists .client ids cannedKeyAlgoClient = ID_UNKNOWN then some (none, { s with peerSigId := [] })
    else some (none, { s with peerSigId := ids })

/-- The loop of `DoExtInfo` (src/internal.c:8368-8383). -/
def extLoop (s : Cl) (mem : Bytes) (len : Nat) : Nat → Nat → Option (Ret × Cl)
  | 0, _ => some (none, s)
  | n+1, idx =>
    match getStringRef mem len idx with
    | .ub => none
    | .err e _ => some (some e, s)
    | .ok nameR i1 =>
      match getStringRef mem len i1 with
      | .ub => none
      | .err e _ => some (some e, s)
      | .ok valueR i2 =>
        match deref mem nameR, deref mem valueR with
        | some name, some value =>
          if nameToId table name = ID_EXTINFO_SERVER_SIG_ALGS then
            match doServerSigAlgs s value with
            | some (none, s) => extLoop s mem len n i2
            | r => r
          else extLoop s mem len n i2
        | _, _ => none

/-- `DoExtInfo` (src/internal.c:8357-8386). -/
def doExtInfo (s : Cl) (mem : Bytes) (len : Nat) : Option (Ret × Cl) :=
  match getUint32 mem len 0 with
  | .ub => none
  | .err e _ => some (some e, s)
  | .ok n i => extLoop s mem len n i

/-- What happens to a client: its first request (`wolfSSH_connect`, src/ssh.c:972-976), and messages of the server, the
payload after the message number being the first `len` bytes of the memory. -/
inductive In where
  | start
  | failure (mem : Bytes) (len : Nat)
  | info (mem : Bytes) (len : Nat)
  | ext (mem : Bytes) (len : Nat)
  deriving DecidableEq, Repr

/-- One of these. -/
def step (E : Env) (s : Cl) : In → Option (Ret × Cl)
  | .start => some (sendUserAuthRequest E s {})
  | .failure mem len => doUserAuthFailure E s mem len
  | .info mem len => doUserAuthInfoRequest E s mem len
  | .ext mem len => doExtInfo s mem len

/-- Any number of them, whatever the results. -/
def run (s : Cl) : List (Env × In) → Option Cl
  | [] => some s
  | (E, i) :: xs =>
    match step E s i with
    | none => none
    | some (_, s) => run s xs

/-! ## The server's three messages -/

/-- `GetAllowedAuth` (src/internal.c:19521-19566): the names with a comma after each, the last comma not counted. -/
def getAllowedAuth (t : Types) : Bytes :=
  let l := (if t.publicKey then asc "publickey," else []) ++ (if t.password then asc "password," else []) ++
    (if t.keyboard then asc "keyboard-interactive," else [])
  l.take (if l.length > 0 then l.length - 1 else 0)

/-- `SendUserAuthFailure` (src/internal.c:19568-19613): the size for `PreparePacket` and the payload. -/
def userAuthFailureMsg (t : Types) (isPartial : Bool) : Nat × Bytes :=
  let l := getAllowedAuth t
  (1 + 4 + l.length + 1, [51] ++ c32toa l.length ++ l ++ [if isPartial then 1 else 0])

/-- The prompts (src/internal.c:17268-17278). -/
def promptBytes : List (Bytes × Byte) → Bytes
  | [] => []
  | (p, e) :: ps => str p ++ [e] ++ promptBytes ps

/-- What the prompts add to the payload size (src/internal.c:17210-17214). -/
def promptSz : List (Bytes × Byte) → Nat
  | [] => 0
  | (p, _) :: ps => 4 + p.length + 1 + promptSz ps

/-- `PrepareUserAuthRequestKeyboard`, `BuildUserAuthRequestKeyboard` in `SendUserAuthKeyboardRequest`
(src/internal.c:17187-17283, 17333-17351): the size and the payload, for what the application set. -/
def infoRequestMsg (p : Shown) : Nat × Bytes :=
  ((1 + (4 * 3 + p.name.length + p.instruction.length + p.language.length + 4 + promptSz p.prompts)) % 2^32,
   [60] ++ str p.name ++ str p.instruction ++ str p.language ++ c32toa p.prompts.length ++ promptBytes p.prompts)

/-- `SendExtInfoServer` (src/internal.c:17035-17088): the size and the payload. -/
def extInfoMsg (accepted : Bytes) : Nat × Bytes :=
  let sz := algoListSz accepted
  let name := asc "server-sig-algs"
  (1 + 4 + 4 * 2 + name.length + sz, [7] ++ c32toa 1 ++ str name ++ c32toa sz ++ accepted.take sz)

end Wolf.ClientAuth
