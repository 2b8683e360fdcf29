import Verif.Model.SshdCert
import Verif.Model.SshdFile
import Verif.Model.SshdConfig
/-!
# The decision of wolfsshd on a user (apps/wolfsshd/auth.c: 670-885 passwords, 1461-1481 `CheckUserUnix`, 1735-1830
`CheckPublicKeyUnix`, 2200-2370 root and UPN rules, 2443-2800 `RequestAuthentication`, 3420-3490 `wolfSSHD_AuthGetUserConf`)

POSIX with libcrypt and without PAM. The user database, `crypt`, the clock, the file system and the X.509 parser are inputs;
the database does not change during a request. Allocation failures and logging are not modelled; the dummy `crypt` calls of
`DoFakePasswordCheck` (timing only, the result is ignored) are left out.
-/

namespace Wolf.Sshd
open Wolf Wolf.OsshCert

/-- `struct passwd`, as far as it is used. -/
structure Passwd where
  passwd : Bytes
  uid : Nat
  gid : Nat
  dir : Bytes
  deriving DecidableEq, Repr

/-- What the system answers: `getpwnam` and whether it sets `errno`, the group names of a user (`none` if
`wolfSSHD_GetUserGroupNames`, auth.c:3332-3385, fails), `getspnam` (`none` for NULL, `some none` for a NULL hash), `crypt`, the
cached hash (auth.c:362), whether `wolfSSHD_AuthRaisePermissions` and `wolfSSHD_AuthReducePermissions` succeed, `geteuid`, the
time, files; the build: `HAVE_SHADOW`, `WOLFSSL_FPKI`; `wc_ParseCert`: the UPNs of an X.509 certificate, `none` if it cannot be
parsed. -/
structure Sys where
  getpwnam : Bytes → Option Passwd
  errno : Bytes → Bool
  groups : Bytes → Option (List Bytes)
  hasShadow : Bool
  getspnam : Bytes → Option (Option Bytes)
  crypt : Bytes → Bytes → Option Bytes
  cachedHash : Option Bytes
  raiseOk : Bool
  reduceOk : Bool
  euid : Nat
  now : Nat
  world : World
  plainOpen : Bytes → Option Bytes
  net : Net
  keys : KeysEnv
  fpki : Bool
  upns : Bytes → Option (List Bytes)

/-! ## Passwords -/

/-- `fakeHashSHA512`, `fakeHashMD5`, `fakeHashDES` (auth.c:674-678). -/
def fakeHashSHA512 : Bytes := name "$6$rounds=5000$wolfSSHdFakeSalt$"
def fakeHashMD5 : Bytes := name "$1$wolfSSHd$UkYLseEmSSXHYyxsWDQC80"
def fakeHashDES : Bytes := name "wowolfSSHdUkYLs"

/-- `hashedInput == NULL || hashedInput[0] == '*'` (auth.c:733). -/
def noHash (h : Option Bytes) : Bool :=
  match h with
  | none => true
  | some h => h.head? = some 42

/-- The salt for a locked account (auth.c:705-724). -/
def lockedSalt (S : Sys) (stored : Bytes) : Bytes :=
  if stored.length > 1 ∧ stored.head? = some 33 ∧ stored[1]? = some 36 then stored.drop 1
  else
    let dflt := fakeHashSHA512
    if S.hasShadow then
      match S.cachedHash with
      | some h => if h.head? = some 33 ∧ h[1]? = some 36 then h.drop 1 else dflt
      | none => dflt
    else dflt

/-- `CheckPasswordHashUnix` (auth.c:664-757); `input` and `stored` are C strings. -/
def checkPasswordHashUnix (S : Sys) (input stored : Bytes) : AuthRc :=
  if stored = [] ∧ input = [] then .success
  else
    let locked := stored = [] ∨ stored.head? = some 42 ∨ stored.head? = some 33
    if locked then
      let h0 := S.crypt input (lockedSalt S stored)
      let h1 := if noHash h0 then S.crypt input fakeHashMD5 else h0
      let h2 := if noHash h1 then S.crypt input fakeHashDES else h1
      match h2 with
      | none => .error .fatal
      | some _ => .failure
    else
      match S.crypt input stored with
      | none => .error .fatal
      | some h =>
        if h.length = 0 ∨ h.head? = some 42 ∨ h.length ≠ stored.length ∨ h ≠ stored then .failure else .success

/-- `WSSHD_FAKE_HASH_SZ` (auth.c:346). -/
def FAKE_HASH_SZ : Nat := 256

/-- The stored hash (auth.c:793-850). -/
def storedHash (S : Sys) (usr : Bytes) : Except Err Bytes :=
  match S.getpwnam usr with
  | none => .ok [42]
  | some pw =>
    if S.hasShadow ∧ pw.passwd.head? = some 120 then
      match S.getspnam usr with
      | none => .error .fatal
      | some none => .error .fatal
      | some (some h) => if h.length ≥ FAKE_HASH_SZ then .error .fatal else .ok h
    else .ok pw.passwd

/-- `CheckPasswordUnix` (auth.c:760-885): the password is used as a C string. -/
def checkPasswordUnix (S : Sys) (usr pw : Bytes) : AuthRc :=
  match storedHash S usr with
  | .error e => .error e
  | .ok h => checkPasswordHashUnix S (cstr pw) h

/-! ## Public keys -/

/-- The fields of `WS_UserAuthData_PublicKey` (wolfssh/ssh.h:400-440) that are used: the key, whether it came as an X.509
certificate (`isCert`), and what is shown of an OpenSSH certificate (`isOsshCert`). -/
structure PubKey where
  key : Bytes
  isCert : Bool
  ossh : Option Shown

/-- Opening a keys file (auth.c:1295-1306): securely in strict mode. -/
def openKeysFile (S : Sys) (owner : Nat) (strict : Bool) (path : Bytes) : Option Bytes :=
  if strict then openSecureFile S.world path owner false else S.plainOpen path

/-- `CheckUserUnix` (auth.c:1461-1481). -/
def checkUserUnix (S : Sys) (usr : Bytes) : AuthRc :=
  match S.getpwnam usr with
  | none => if S.errno usr then .error .fatal else .failure
  | some _ => .success

/-- The checks on an OpenSSH certificate in `CheckPublicKeyUnix` (auth.c:1756-1810). -/
def checkOsshUnix (S : Sys) (usr : Bytes) (sh : Shown) (caFile : Option Bytes) (peerIp : Option Bytes) : AuthRc :=
  if sh.caKey = [] then .error .fatal
  else match caFile with
    | none => .failure
    | some f =>
      match S.getpwnam usr with
      | none => .error .fatal
      | some _ =>
        match searchKeysFile S.keys (openKeysFile S S.euid true f) true sh.caKey with
        | .failure => .failure
        | .error e => .error e
        | .success =>
          match osshCertCheckPrincipal sh.principals usr with
          | .failure => .failure
          | .error e => .error e
          | .success =>
            match osshCertCheckValidity sh S.now with
            | .failure => .failure
            | .error e => .error e
            | .success => osshCertCheckSourceAddress S.net sh peerIp

/-- `CheckPublicKeyUnix` (auth.c:1735-1830). `strict` is `StrictModes` of the first node of the configuration
(`authCtx->conf`), whatever node is the user's. -/
def checkPublicKeyUnix (S : Sys) (usr : Bytes) (k : PubKey) (caFile keysFile : Option Bytes) (strict : Bool)
    (peerIp : Option Bytes) : AuthRc :=
  match k.ossh with
  | some sh => checkOsshUnix S usr sh caFile peerIp
  | none =>
    match S.getpwnam usr with
    | none => .error .fatal
    | some pw => searchForPubKey S.keys (openKeysFile S pw.uid strict) pw.dir keysFile usr k.key strict

/-! ## UPN -/

/-- `tolower` of the C locale, as in `WSTRNCASECMP`. -/
def lower (c : UInt8) : UInt8 := if 65 ≤ c ∧ c ≤ 90 then c + 32 else c

/-- The characters between realms (auth.c:2347-2348). -/
def upnSep (c : UInt8) : Bool := c = 32 ∨ c = 9 ∨ c = 13 ∨ c = 10 ∨ c = 44

/-- The loop over the allowed realms (auth.c:2344-2365); every round takes at least one character. -/
def realmLoop (domain : Bytes) : Nat → Bytes → Bool
  | 0, _ => false
  | fuel + 1, p =>
    if p = [] then false
    else
      let p := p.dropWhile upnSep
      let tok := p.takeWhile (fun c => !upnSep c)
      let p := p.dropWhile (fun c => !upnSep c)
      if tok.length > 0 ∧ tok.length = domain.length ∧ tok.map lower = domain.map lower then true
      else realmLoop domain fuel p

/-- `MatchUPNToUser` (auth.c:2309-2373). -/
def matchUPNToUser (usr upn : Bytes) (allow : Option Bytes) : Bool :=
  let local_ := upn.takeWhile (fun c => c ≠ 64)
  let idx := local_.length
  if usr.length = idx ∧ usr = local_ then
    match allow with
    | none => true
    | some [] => true
    | some (a :: l) =>
      if idx < upn.length then realmLoop (upn.drop (idx + 1)) (a :: l).length (a :: l) else false
  else false

/-! ## The request -/

/-- Results of the callback (wolfssh/ssh.h:676-690). -/
inductive Answer where
  | success
  | failure
  | invalidAuthtype
  | invalidUser
  | invalidPassword
  | rejected
  | invalidPublickey
  deriving DecidableEq, Repr

/-- What the peer offers. -/
inductive Cred where
  | none
  | password (pw : Bytes)
  | publicKey (k : PubKey)

/-- `wolfSSHD_AuthGetUserConf` (auth.c:3437-3485) for a user. -/
def authGetUserConf (S : Sys) (conf : List Conf) (usr : Bytes) : Option Conf :=
  match S.getpwnam usr with
  | none => none
  | some _ =>
    match S.groups usr with
    | none => none
    | some g => getUserConf conf (some usr) g

/-- `IsRootUser` (auth.c:2201-2218). -/
def isRootUser (S : Sys) (usr : Bytes) : Bool :=
  (match S.getpwnam usr with
    | some pw => pw.uid = 0
    | none => false) || usr = name "root"

/-- `IsRootLoginDenied`, `IsRootPasswordAuthBlocked`, `IsRootPubKeyForcedCmdMissing` (auth.c:2221-2247). -/
def isRootLoginDenied (isRoot : Bool) (c : Conf) : Bool := isRoot && c.permitRoot = 0
def isRootPasswordAuthBlocked (isRoot : Bool) (c : Conf) : Bool := isRoot && (c.permitRoot = 2 || c.permitRoot = 3)
def isRootPubKeyForcedCmdMissing (isRoot : Bool) (c : Conf) : Bool := isRoot && c.permitRoot = 3 && c.forceCmd = none

/-- `DoCheckUser` (auth.c:2250-2287). -/
def doCheckUser (S : Sys) (conf : List Conf) (usr : Bytes) (isRoot : Bool) : Answer :=
  let denied := isRoot &&
    (match authGetUserConf S conf usr with
      | none => true
      | some c => isRootLoginDenied isRoot c)
  if denied then .rejected
  else match checkUserUnix S usr with
    | .success => .success
    | .failure => .invalidUser
    | .error _ => .failure

/-- The password part (auth.c:2521-2575): the answer and the attempts that are left. -/
def passwordPart (S : Sys) (c : Conf) (isRoot : Bool) (usr pw : Bytes) (attempts : Int) : Answer × Int :=
  if !c.passwordAuth then (.rejected, attempts)
  else if isRootPasswordAuthBlocked isRoot c then (.rejected, attempts)
  else if pw.length = 0 ∧ !c.permitEmpty then (.failure, attempts)
  else match checkPasswordUnix S usr pw with
    | .success => (.success, attempts)
    | .failure =>
      if attempts - 1 = 0 then (.rejected, attempts - 1) else (.invalidPassword, attempts - 1)
    | .error _ => (.failure, attempts)

/-- The UPN check of builds with `WOLFSSL_FPKI` (auth.c:2600-2670). -/
def upnPart (S : Sys) (c : Conf) (usr : Bytes) (k : PubKey) : Bool :=
  if S.fpki ∧ k.isCert then
    match S.upns k.key with
    | none => false
    | some l => l.any (fun n => matchUPNToUser usr n c.upnDomains)
  else true

/-- The public key part (auth.c:2583-2755). `CAKeysFileDiffers` (2291-2307) is inequality. `c0` is the first node. -/
def publicKeyPart (S : Sys) (c0 c : Conf) (isRoot : Bool) (usr : Bytes) (k : PubKey) (peerIp : Option Bytes) : Answer :=
  if !c.pubKeyAuth then .rejected
  else if isRootPubKeyForcedCmdMissing isRoot c then .rejected
  else if !upnPart S c usr k then .invalidPublickey
  else if k.isCert ∧ !c.authKeysFileSet then
    if c0.userCAKeysFile ≠ c.userCAKeysFile then .rejected
    else if S.fpki then .success
    else .rejected
  else match checkPublicKeyUnix S usr k c.userCAKeysFile c.authKeysFile c0.strictModes peerIp with
    | .success => .success
    | .failure => .invalidPublickey
    | .error _ => .failure

/-- The answer of `RequestAuthentication` before the permissions are reduced again. -/
def decideAuth (S : Sys) (conf : List Conf) (usr : Bytes) (cred : Cred) (peerIp : Option Bytes) (attempts : Int) :
    Answer × Int :=
  let isRoot := isRootUser S usr
  match doCheckUser S conf usr isRoot with
  | .success =>
    if !S.raiseOk then (.failure, attempts)
    else match authGetUserConf S conf usr, conf.head? with
      | some c, some c0 =>
        match cred with
        | .none => (.success, attempts)
        | .password pw => passwordPart S c isRoot usr pw attempts
        | .publicKey k => (publicKeyPart S c0 c isRoot usr k peerIp, attempts)
      | _, _ => (.failure, attempts)
  | a => (a, attempts)

/-- `DefaultUserAuth` and `RequestAuthentication` (auth.c:2467-2800) for a user name (a C string), what is offered, the
recorded address of the peer and the attempts left: the answer and the attempts left after it, `none` if the process exits. -/
def requestAuthentication (S : Sys) (conf : List Conf) (usr : Bytes) (cred : Cred) (peerIp : Option Bytes) (attempts : Int) :
    Option (Answer × Int) :=
  match cred with
  | .none => some (.invalidAuthtype, attempts)
  | cred => if S.reduceOk then some (decideAuth S conf usr cred peerIp attempts) else none

/-- `WOLFSSHD_MAX_PASSWORD_ATTEMPTS` (auth.c:159-161). -/
def MAX_PASSWORD_ATTEMPTS : Int := 3

/-- `wolfSSHD_AuthSetPeerIp` (auth.c:3006-3023): the recorded address is empty if it does not fit in 64 bytes with its
terminator (`WOLFSSHD_PEER_IP_SZ`). -/
def authSetPeerIp (ip : Bytes) : Bytes := if ip.length < 64 then ip else []

/-- `wolfSSHD_GetUserAuthTypes` and `DefaultUserAuthTypes` (auth.c:2805-2843): the methods offered: password, public key. -/
def defaultUserAuthTypes (S : Sys) (conf : List Conf) (usr : Bytes) : Bool × Bool :=
  match authGetUserConf S conf usr with
  | none => (false, false)
  | some c => (c.passwordAuth, c.pubKeyAuth)

end Wolf.Sshd
