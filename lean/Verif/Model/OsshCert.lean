import Verif.Model.NameList
/-!
# OpenSSH certificates (src/ossh.c:747-1482, wolfssh/ossh.h, built with `WOLFSSH_OSSH_CERTS`)

Parsing of a certificate blob, the check of its type, of its critical options and extensions, and
of the signature of the certification authority; and what the server makes of a certificate offered
as public key (src/internal.c:9955-10074). A pointer into the blob is a `StrRef`; a read outside
the memory is `ub`.

The arithmetic of the signature schemes is an input (`Crypto`). Not modelled: allocation failures,
`WOLFSSH_NO_*` subsets, SHA-1 signatures of an RSA authority (`WOLFSSH_NO_SHA1_SOFT_DISABLE`, off by
default).
-/

namespace Wolf.OsshCert
open Wolf Wolf.Wire Wolf.NameList

/-- Sequencing of readers: the next one starts where the previous stopped, the first error or
undefined behaviour ends the chain (`if (ret == WS_SUCCESS)` throughout src/ossh.c). -/
def andThen {α β : Type} (r : Res α) (f : α → Nat → Res β) : Res β :=
  match r with
  | .ub => .ub
  | .err e i => .err e i
  | .ok v i => f v i

/-- The identifiers used here (wolfssh/internal.h:463-503); only their being different matters. -/
def ID_SSH_RSA : Nat := 24
def ID_RSA_SHA2_256 : Nat := 25
def ID_RSA_SHA2_512 : Nat := 26
def ID_ECDSA_SHA2_NISTP256 : Nat := 27
def ID_ECDSA_SHA2_NISTP384 : Nat := 28
def ID_ECDSA_SHA2_NISTP521 : Nat := 29
def ID_ED25519 : Nat := 30
def ID_OSSH_CERT_RSA : Nat := 35
def ID_OSSH_CERT_ECDSA_SHA2_NISTP256 : Nat := 36
def ID_OSSH_CERT_ECDSA_SHA2_NISTP384 : Nat := 37
def ID_OSSH_CERT_ECDSA_SHA2_NISTP521 : Nat := 38
def ID_OSSH_CERT_ED25519 : Nat := 39
/-- wolfssh/internal.h:530-532. -/
def ID_CURVE_NISTP256 : Nat := 250
def ID_CURVE_NISTP384 : Nat := 251
def ID_CURVE_NISTP521 : Nat := 252

/-- The rows of `NameIdMap` these functions can hit (src/internal.c:3430-3454, 3509-3537 and the
curves at 3556-3562). All other rows have other names and other identifiers. -/
def keyTable : Table :=
  [⟨ID_SSH_RSA, .key, asc "ssh-rsa"⟩, ⟨ID_RSA_SHA2_256, .key, asc "rsa-sha2-256"⟩,
   ⟨ID_RSA_SHA2_512, .key, asc "rsa-sha2-512"⟩,
   ⟨ID_ECDSA_SHA2_NISTP256, .key, asc "ecdsa-sha2-nistp256"⟩,
   ⟨ID_ECDSA_SHA2_NISTP384, .key, asc "ecdsa-sha2-nistp384"⟩,
   ⟨ID_ECDSA_SHA2_NISTP521, .key, asc "ecdsa-sha2-nistp521"⟩,
   ⟨ID_ED25519, .key, asc "ssh-ed25519"⟩,
   ⟨ID_OSSH_CERT_RSA, .key, asc "ssh-rsa-cert-v01@openssh.com"⟩,
   ⟨ID_OSSH_CERT_RSA, .key, asc "rsa-sha2-256-cert-v01@openssh.com"⟩,
   ⟨ID_OSSH_CERT_RSA, .key, asc "rsa-sha2-512-cert-v01@openssh.com"⟩,
   ⟨ID_OSSH_CERT_ECDSA_SHA2_NISTP256, .key, asc "ecdsa-sha2-nistp256-cert-v01@openssh.com"⟩,
   ⟨ID_OSSH_CERT_ECDSA_SHA2_NISTP384, .key, asc "ecdsa-sha2-nistp384-cert-v01@openssh.com"⟩,
   ⟨ID_OSSH_CERT_ECDSA_SHA2_NISTP521, .key, asc "ecdsa-sha2-nistp521-cert-v01@openssh.com"⟩,
   ⟨ID_OSSH_CERT_ED25519, .key, asc "ssh-ed25519-cert-v01@openssh.com"⟩,
   ⟨ID_CURVE_NISTP256, .other, asc "nistp256"⟩,
   ⟨ID_CURVE_NISTP384, .other, asc "nistp384"⟩,
   ⟨ID_CURVE_NISTP521, .other, asc "nistp521"⟩]

/-- `OsshCertBaseId` (src/ossh.c:749-785). -/
def osshCertBaseId (certId : Nat) : Nat :=
  if certId = ID_OSSH_CERT_RSA then ID_SSH_RSA
  else if certId = ID_OSSH_CERT_ECDSA_SHA2_NISTP256 then ID_ECDSA_SHA2_NISTP256
  else if certId = ID_OSSH_CERT_ECDSA_SHA2_NISTP384 then ID_ECDSA_SHA2_NISTP384
  else if certId = ID_OSSH_CERT_ECDSA_SHA2_NISTP521 then ID_ECDSA_SHA2_NISTP521
  else if certId = ID_OSSH_CERT_ED25519 then ID_ED25519
  else ID_UNKNOWN

/-- The name a pointer designates, looked up (`NameToId(str, strSz)`); `none` is a read outside
the memory. -/
def lookup (mem : Bytes) (r : StrRef) : Option Nat := (deref mem r).map (nameToId keyTable)

/-- `OsshSkipUserKey` (src/ossh.c:816-853). -/
def osshSkipUserKey (baseId : Nat) (blob : Bytes) (len idx : Nat) : Res Unit :=
  if baseId = ID_SSH_RSA then
    andThen (getMpint blob len idx) fun _ i =>
    andThen (getMpint blob len i) fun _ i => .ok () i
  else if baseId = ID_ECDSA_SHA2_NISTP256 ∨ baseId = ID_ECDSA_SHA2_NISTP384 ∨
      baseId = ID_ECDSA_SHA2_NISTP521 then
    andThen (getStringRef blob len idx) fun _ i =>
    andThen (getStringRef blob len i) fun _ i => .ok () i
  else if baseId = ID_ED25519 then
    andThen (getStringRef blob len idx) fun _ i => .ok () i
  else .err .invalidAlgoId idx

/-- `WS_OsshCert` (wolfssh/ossh.h:42-68). References are into the blob, `caKeyType` into the
authority's key (`cert->caKey`). The `forceCommand` and `sourceAddress` members are the result of
`osshCertCheckOptions`. -/
structure Cert where
  signedLen : Nat
  typeId : Nat
  baseTypeId : Nat
  nonce : StrRef
  userKeyOff : Nat
  userKeySz : Nat
  serial : Nat
  certType : Nat
  keyId : StrRef
  principals : StrRef
  validAfter : Nat
  validBefore : Nat
  critOpts : StrRef
  extensions : StrRef
  caKey : StrRef
  caKeyType : StrRef
  signature : StrRef
  deriving DecidableEq, Repr

/-- The memory behind a string pointer (NULL for an empty string). -/
def view (mem : Bytes) (r : StrRef) : Bytes :=
  match r.off with
  | none => []
  | some o => mem.drop o

/-- `OsshCertParse` (src/ossh.c:856-969); `blob` is the memory and `blobSz` its claimed length. -/
def osshCertParse (typeId : Nat) (blob : Bytes) (blobSz : Nat) : Res Cert :=
  if blobSz = 0 then .err .badArgument 0
  else if osshCertBaseId typeId = ID_UNKNOWN then .err .invalidAlgoId 0
  else
    andThen (getStringRef blob blobSz 0) fun str i =>
    match lookup blob str with
    | none => .ub
    | some id =>
    if id ≠ typeId then .err .invalidAlgoId i
    else
    andThen (getStringRef blob blobSz i) fun nonce ukStart =>
    andThen (osshSkipUserKey (osshCertBaseId typeId) blob blobSz ukStart) fun _ i =>
    let userKeySz := sub32 i ukStart
    andThen (getUint64 blob blobSz i) fun serial i =>
    andThen (getUint32 blob blobSz i) fun certType i =>
    andThen (getStringRef blob blobSz i) fun keyId i =>
    andThen (getStringRef blob blobSz i) fun principals i =>
    andThen (getUint64 blob blobSz i) fun validAfter i =>
    andThen (getUint64 blob blobSz i) fun validBefore i =>
    andThen (getStringRef blob blobSz i) fun critOpts i =>
    andThen (getStringRef blob blobSz i) fun extensions i =>
    andThen (getStringRef blob blobSz i) fun _ i =>
    andThen (getStringRef blob blobSz i) fun caKey i =>
    andThen (getStringRef (view blob caKey) caKey.sz 0) fun caKeyType _ =>
    let signedLen := i
    andThen (getStringRef blob blobSz i) fun signature i =>
    if i ≠ blobSz then .err .parseE i
    else .ok ⟨signedLen, typeId, osshCertBaseId typeId, nonce, ukStart, userKeySz, serial, certType,
      keyId, principals, validAfter, validBefore, critOpts, extensions, caKey, caKeyType,
      signature⟩ i

/-- `NameToId(cert->caKeyType, cert->caKeyTypeSz)`. -/
def caId (blob : Bytes) (c : Cert) : Option Nat := lookup (view blob c.caKey) c.caKeyType

/-- `WOLFSSH_OSSH_CERT_TYPE_USER` (wolfssh/ossh.h:38). -/
def CERT_TYPE_USER : Nat := 1

/-- `OsshCertCheckType` (src/ossh.c:972-997); the outer `none` is undefined behaviour. -/
def osshCertCheckType (blob : Bytes) (c : Cert) : Option (Option Err) :=
  if c.certType ≠ CERT_TYPE_USER then some (some .invalidAlgoId)
  else
    match caId blob c with
    | none => none
    | some id =>
      if id ≠ ID_SSH_RSA ∧ id ≠ ID_ECDSA_SHA2_NISTP256 ∧ id ≠ ID_ECDSA_SHA2_NISTP384 ∧
          id ≠ ID_ECDSA_SHA2_NISTP521 ∧ id ≠ ID_ED25519 then some (some .invalidAlgoId)
      else some none

/-- C `memcmp(a, b, n)` on the first `n` bytes (both at least that long), as a sign. -/
def memcmp : Nat → Bytes → Bytes → Int
  | 0, _, _ => 0
  | n+1, x :: a, y :: b => if x < y then -1 else if y < x then 1 else memcmp n a b
  | _+1, _, _ => 0

/-- `OsshNameCmp` (src/ossh.c:1001-1020). -/
def osshNameCmp (a b : Bytes) : Int :=
  let n := if a.length < b.length then a.length else b.length
  let c := if n > 0 then memcmp n a b else 0
  if c = 0 then
    if a.length < b.length then -1 else if a.length > b.length then 1 else 0
  else c

/-- `OsshNameEq` (src/ossh.c:1023-1027). -/
def osshNameEq (a lit : Bytes) : Bool := a.length = lit.length && memcmp lit.length a lit == 0

/-- The members of `WS_OsshCert` filled in by `OsshCertCheckOptions` (`none` is NULL). -/
structure Restrictions where
  forceCommand : Option Bytes := none
  sourceAddress : Option Bytes := none
  deriving DecidableEq, Repr

/-- A name that does not come after the one before it (src/ossh.c:1062-1066); nothing comes before
the first, where `prevName` is NULL. -/
def outOfOrder (prev : Option Bytes) (name : Bytes) : Bool :=
  match prev with
  | none => false
  | some p => decide (osshNameCmp p name ≥ 0)

/-- The loop over the critical options (src/ossh.c:1054-1106). `prev` is `prevName` (`none` for
NULL, which is also what an empty name leaves). `fuel` bounds the number of rounds; running out of
it is `ub`, and does not happen (C84). -/
def critLoop (mem : Bytes) (sz : Nat) : Nat → Nat → Option Bytes → Restrictions → Res Restrictions
  | 0, _, _, _ => .ub
  | fuel+1, idx, prev, acc =>
    if idx < sz then
      andThen (getStringRef mem sz idx) fun nameR i =>
      match deref mem nameR with
      | none => .ub
      | some name =>
        if outOfOrder prev name = true then .err .parseE i
        else
          andThen (getStringRef mem sz i) fun dataR i =>
          let data := view mem dataR
          if osshNameEq name (asc "force-command") then
            andThen (getStringRef data dataR.sz 0) fun vR di =>
            if vR.sz = 0 then .err .parseE i
            else if di ≠ dataR.sz then .err .parseE i
            else
              match deref data vR with
              | none => .ub
              | some v => critLoop mem sz fuel i (if name = [] then none else some name)
                  { acc with forceCommand := some v }
          else if osshNameEq name (asc "source-address") then
            andThen (getStringRef data dataR.sz 0) fun vR di =>
            if vR.sz = 0 then .err .parseE i
            else if di ≠ dataR.sz then .err .parseE i
            else
              match deref data vR with
              | none => .ub
              | some v => critLoop mem sz fuel i (if name = [] then none else some name)
                  { acc with sourceAddress := some v }
          else .err .unimplemented i
    else .ok acc idx

/-- The loop over the extensions (src/ossh.c:1111-1131): pairs of strings, all ignored. -/
def extLoop (mem : Bytes) (sz : Nat) : Nat → Nat → Res Unit
  | 0, _ => .ub
  | fuel+1, idx =>
    if idx < sz then
      andThen (getStringRef mem sz idx) fun _ i =>
      andThen (getStringRef mem sz i) fun _ i => extLoop mem sz fuel i
    else .ok () idx

/-- `OsshCertCheckOptions` (src/ossh.c:1030-1134). -/
def osshCertCheckOptions (blob : Bytes) (c : Cert) : Res Restrictions :=
  andThen (critLoop (view blob c.critOpts) c.critOpts.sz (c.critOpts.sz + 1) 0 none {}) fun r _ =>
  andThen (extLoop (view blob c.extensions) c.extensions.sz (c.extensions.sz + 1) 0) fun _ i => .ok r i

/-- The hash of an RSA signature name (src/ossh.c:1247-1275). -/
inductive Hash where
  | sha256 | sha384 | sha512
  deriving DecidableEq, Repr

/-- The signature schemes of wolfCrypt as the code calls them, key import included: whether the
signature verifies over `msg`. -/
structure Crypto where
  /-- `wc_ed25519_import_public`, `wc_ed25519_verify_msg` -/
  ed25519 : (pub sig msg : Bytes) → Bool
  /-- `wc_RsaPublicKeyDecodeRaw`, `wc_Hash`, `wc_EncodeSignature`, `wolfSSH_RsaVerify` -/
  rsa : Hash → (e n sig msg : Bytes) → Bool
  /-- `wc_ecc_import_x963`, `wc_ecc_rs_raw_to_sig`, `wc_Hash`, `wc_SignatureVerifyHash` -/
  ecdsa : Hash → (q r s msg : Bytes) → Bool

/-- The signed bytes: `cert->blob`, `cert->signedLen`; `none` if they are not all in memory. -/
def signedBytes (blob : Bytes) (c : Cert) : Option Bytes :=
  if c.signedLen ≤ blob.length then some (blob.take c.signedLen) else none

/-- The last step of a verifier, given the pieces (all must be in memory). -/
def finish (ok : Bool) (e : Err) (i : Nat) : Res Unit := if ok then .ok () i else .err e i

/-- `OsshVerifyEd25519` (src/ossh.c:1138-1189). -/
def osshVerifyEd25519 (K : Crypto) (blob : Bytes) (c : Cert) : Res Unit :=
  let ca := view blob c.caKey
  let sg := view blob c.signature
  andThen (getStringRef ca c.caKey.sz (add32 c.caKeyType.sz 4)) fun aR _ =>
  andThen (getSkip sg c.signature.sz 0) fun _ i =>
  andThen (getStringRef sg c.signature.sz i) fun sR i =>
  match deref ca aR, deref sg sR, signedBytes blob c with
  | some a, some s, some m => finish (K.ed25519 a s m) .cryptoFailed i
  | _, _, _ => .ub

/-- `OsshVerifyRsa` (src/ossh.c:1194-1322). -/
def osshVerifyRsa (K : Crypto) (blob : Bytes) (c : Cert) : Res Unit :=
  let ca := view blob c.caKey
  let sg := view blob c.signature
  andThen (getMpint ca c.caKey.sz (add32 c.caKeyType.sz 4)) fun eR i =>
  andThen (getMpint ca c.caKey.sz i) fun nR _ =>
  andThen (getStringRef sg c.signature.sz 0) fun tR i =>
  andThen (getStringRef sg c.signature.sz i) fun sR i =>
  match deref sg tR with
  | none => .ub
  | some t =>
    let hash : Option Hash :=
      if tR.sz = 12 ∧ t = asc "rsa-sha2-256" then some .sha256
      else if tR.sz = 12 ∧ t = asc "rsa-sha2-512" then some .sha512
      else none
    match hash with
    | none => .err .invalidAlgoId i
    | some h =>
      match deref ca eR, deref ca nR, deref sg sR, signedBytes blob c with
      | some e, some n, some s, some m => finish (K.rsa h e n s m) .rsaE i
      | _, _, _, _ => .ub

/-- `OsshVerifyEcc` (src/ossh.c:1327-1447). -/
def osshVerifyEcc (K : Crypto) (blob : Bytes) (c : Cert) : Res Unit :=
  let ca := view blob c.caKey
  let sg := view blob c.signature
  match caId blob c with
  | none => .ub
  | some id =>
    let scheme : Option (Hash × Nat) :=
      if id = ID_ECDSA_SHA2_NISTP256 then some (.sha256, ID_CURVE_NISTP256)
      else if id = ID_ECDSA_SHA2_NISTP384 then some (.sha384, ID_CURVE_NISTP384)
      else if id = ID_ECDSA_SHA2_NISTP521 then some (.sha512, ID_CURVE_NISTP521)
      else none
    match scheme with
    | none => .err .invalidAlgoId 0
    | some (h, curve) =>
      andThen (getStringRef ca c.caKey.sz (add32 c.caKeyType.sz 4)) fun cR i =>
      match lookup ca cR with
      | none => .ub
      | some cid =>
        if cid ≠ curve then .err .invalidAlgoId i
        else
          andThen (getStringRef ca c.caKey.sz i) fun qR _ =>
          andThen (getSkip sg c.signature.sz 0) fun _ i =>
          andThen (getStringRef sg c.signature.sz i) fun bR i =>
          let sb := view sg bR
          andThen (getMpint sb bR.sz 0) fun rR j =>
          andThen (getMpint sb bR.sz j) fun sR _ =>
          match deref ca qR, deref sb rR, deref sb sR, signedBytes blob c with
          | some q, some r, some s, some m => finish (K.ecdsa h q r s m) .eccE i
          | _, _, _, _ => .ub

/-- `OsshCertVerifySignature` (src/ossh.c:1450-1480). -/
def osshCertVerifySignature (K : Crypto) (blob : Bytes) (c : Cert) : Res Unit :=
  if c.caKey.off = none ∨ c.signature.off = none then .err .badArgument 0
  else
    match caId blob c with
    | none => .ub
    | some id =>
      if id = ID_SSH_RSA then osshVerifyRsa K blob c
      else if id = ID_ECDSA_SHA2_NISTP256 ∨ id = ID_ECDSA_SHA2_NISTP384 ∨
          id = ID_ECDSA_SHA2_NISTP521 then osshVerifyEcc K blob c
      else if id = ID_ED25519 then osshVerifyEd25519 K blob c
      else .err .invalidAlgoId 0

/-- `IdToName` on the base types (src/internal.c:3610-3626): the first row with the identifier. -/
def idToName (id : Nat) : Bytes :=
  match keyTable.find? (fun e => e.id == id) with
  | some e => e.name
  | none => asc "unknown"

/-- What the application is shown of an accepted certificate: the members of
`WS_UserAuthData_PublicKey` set at src/internal.c:10003-10018. -/
structure Shown where
  keyType : Bytes
  key : Bytes
  caKey : Bytes
  principals : Bytes
  validAfter : Nat
  validBefore : Nat
  restrictions : Restrictions
  deriving DecidableEq, Repr

/-- What the certificate step decides: undefined behaviour, rejection (`authFailure`), or the
substituted key, its type for the signature check, and what the application is shown. -/
inductive Step where
  | ub
  | rejected
  | accepted (id : Nat) (shown : Shown)
  deriving DecidableEq, Repr

/-- `ID_OSSH_CERT_*` (src/internal.c:9957-9961). -/
def isCertId (id : Nat) : Bool :=
  id == ID_OSSH_CERT_RSA || id == ID_OSSH_CERT_ECDSA_SHA2_NISTP256 ||
  id == ID_OSSH_CERT_ECDSA_SHA2_NISTP384 || id == ID_OSSH_CERT_ECDSA_SHA2_NISTP521 ||
  id == ID_OSSH_CERT_ED25519

/-- Whether the client's signature algorithm suits the certified key (src/internal.c:10026-10051). -/
def sigOk (baseId sigId : Nat) : Bool :=
  if baseId = ID_SSH_RSA then sigId == ID_RSA_SHA2_256 || sigId == ID_RSA_SHA2_512
  else if baseId = ID_ECDSA_SHA2_NISTP256 ∨ baseId = ID_ECDSA_SHA2_NISTP384 ∨
      baseId = ID_ECDSA_SHA2_NISTP521 then sigId == baseId
  else if baseId = ID_ED25519 then sigId == ID_ED25519
  else false

/-- The certificate branch of `DoUserAuthRequestPublicKey` (src/internal.c:9955-10074). `blob` is
the memory behind `pubKeyBlob`, `sigAlgo` the algorithm name inside the client's signature when it
sent one. -/
def certStep (K : Crypto) (pkTypeId : Nat) (blob : Bytes) (blobSz : Nat) (sigAlgo : Option Bytes) :
    Step :=
  match osshCertParse pkTypeId blob blobSz with
  | .ub => .ub
  | .err _ _ => .rejected
  | .ok c _ =>
    match osshCertCheckType blob c with
    | none => .ub
    | some (some _) => .rejected
    | some none =>
      match osshCertVerifySignature K blob c with
      | .ub => .ub
      | .err _ _ => .rejected
      | .ok _ _ =>
        match osshCertCheckOptions blob c with
        | .ub => .ub
        | .err _ _ => .rejected
        | .ok restr _ =>
          if c.userKeyOff + c.userKeySz ≤ blob.length then
            let baseName := idToName c.baseTypeId
            let key := c32toa baseName.length ++ baseName ++
              (blob.drop c.userKeyOff).take c.userKeySz
            match deref blob c.caKey, deref blob c.principals with
            | some caKey, some principals =>
              let shown : Shown := ⟨baseName, key, caKey, principals, c.validAfter, c.validBefore,
                restr⟩
              match sigAlgo with
              | none => .accepted c.baseTypeId shown
              | some name =>
                let sigId := nameToId keyTable name
                if sigOk c.baseTypeId sigId then .accepted sigId { shown with keyType := name }
                else .rejected
            | _, _ => .ub
          else .ub

end Wolf.OsshCert
