import Verif.Model.Basic
/-!
# The host keys and certificates of a context (src/internal.c:1296-1305, 2316-2646, 2925-3108, 15753-15761)

`wolfSSH_CTX_UsePrivateKey_buffer` and `wolfSSH_CTX_UseCert_buffer`: how what they are given gets into the context, which
algorithms the server offers because of it, and which of it is used for an algorithm. Decoding PEM, Base64 and ASN.1 and
telling the type of a key are inputs. Left out: keys in a TPM, root certificates, and when memory is freed or cleared (what
a pointer points to is a value here); `WOLFSSH_CERTS` is defined.
-/

namespace Wolf.HostKeys
open Wolf (Byte Bytes)

/-- The types of keys (wolfssh/internal.h:465-505): RSA, the three curves, Ed25519, ML-DSA, composite ML-DSA. -/
inductive Key where
  | rsa | p256 | p384 | p521 | mldsa44 | mldsa65 | mldsa87 | ed25519
  | composite (n : Nat)
  deriving DecidableEq, Repr

/-- What `publicKeyFmt` can be: a key, or an X.509 certificate of one. -/
inductive Fmt where
  | plain (k : Key)
  | cert (k : Key)
  deriving DecidableEq, Repr

/-- The names of host key algorithms: those of formats, and RSA's two newer signatures. -/
inductive Name where
  | fmt (f : Fmt)
  | rsaSha512 | rsaSha256
  deriving DecidableEq, Repr

/-- What was compiled in: which X.509 algorithms (src/internal.c:2370-2403), which RSA signatures (2329-2353). -/
structure Cfg where
  x509 : Key → Bool
  sha512 : Bool
  sha256 : Bool
  sha1 : Bool

/-- `WOLFSSH_PVT_KEY` (wolfssh/internal.h:755-772); `none` is `ID_NONE` or NULL. -/
structure Slot where
  fmt : Option Fmt := none
  key : Option Bytes := none
  cert : Option Bytes := none
  deriving DecidableEq, Repr

/-- `WOLFSSH_MAX_PVT_KEYS` (wolfssh/internal.h:691). -/
def maxKeys : Nat := 16
/-- `WOLFSSH_MAX_PUB_KEY_ALGO` (wolfssh/internal.h:694). -/
def maxAlgos : Nat := maxKeys + 2

/-- `privateKey`, `privateKeyCount` and `publicKeyAlgo` up to `publicKeyAlgoCount` (wolfssh/internal.h:812-815), at first as
in src/internal.c:1296-1305. `outside`: something was written outside of `privateKey`. -/
structure St where
  slots : Nat → Slot := fun _ => {}
  count : Nat := 0
  algos : List Name := []
  outside : Bool := false

/-- A write to `privateKey[i]`. -/
def write (s : St) (i : Nat) (x : Slot) : St :=
  if i < maxKeys then { s with slots := fun j => if j = i then x else s.slots j } else { s with outside := true }

/-- `CertTypeForId` (src/internal.c:2367-2409): Ed25519 and composite keys have no X.509 algorithm. -/
def certTypeForId (c : Cfg) : Fmt → Fmt
  | .plain .ed25519 => .plain .ed25519
  | .plain (.composite n) => .plain (.composite n)
  | .plain k => if c.x509 k then .cert k else .plain k
  | .cert k => .cert k

/-- One step of `RefreshPublicKeyAlgo`: an entry if there is room. -/
def add (l : List Name) (n : Name) : List Name := if l.length < maxAlgos then l ++ [n] else l

/-- The body of the loop in `RefreshPublicKeyAlgo` (src/internal.c:2323-2360). -/
def addSlot (c : Cfg) (l : List Name) (x : Slot) : List Name :=
  match x.fmt with
  | some (.plain .rsa) =>
    let l := if c.sha512 then add l .rsaSha512 else l
    let l := if c.sha256 then add l .rsaSha256 else l
    if c.sha1 then add l (.fmt (.plain .rsa)) else l
  | some f => add l (.fmt f)
  | none => l

/-- `RefreshPublicKeyAlgo` (src/internal.c:2316-2362). -/
def refresh (c : Cfg) (s : St) : St :=
  { s with algos := (List.range s.count).foldl (fun l i => addSlot c l (s.slots i)) [] }

/-- The search for a format: `while (destIdx < privateKeyCount && publicKeyFmt != keyId)` (src/internal.c:2605-2608),
also in src/internal.c:2472-2477 and 15753-15761. -/
def find (s : St) (f : Fmt) : Option Nat := (List.range s.count).find? fun i => (s.slots i).fmt = some f

/-- `UpdateHostCertificates` (src/internal.c:2435-2539), without TPM; `alloc`: the copy of the key can be allocated. -/
def updateHostCertificates (c : Cfg) (s : St) (keyHint certHint : Option Nat) (alloc : Bool) : Bool × St :=
  let certHint := match keyHint, certHint with
    | some k, none => (s.slots k).fmt.bind fun f => find s (certTypeForId c f)
    | _, h => h
  match keyHint, certHint with
  | some k, some h => if alloc then (true, write s h { s.slots h with key := (s.slots k).key }) else (false, s)
  | _, _ => (true, s)

/-- The loop of `SetHostCertificate` (src/internal.c:2555-2565): where the certificate and where its key is; the last one wins. -/
def certScan (c : Cfg) (s : St) (f : Fmt) : Option Nat × Option Nat :=
  (List.range s.count).foldl (fun r i =>
    if (s.slots i).fmt = some f then (some i, r.2)
    else if (s.slots i).fmt.map (certTypeForId c) = some f then (r.1, some i)
    else r) (none, none)

/-- `SetHostCertificate` (src/internal.c:2541-2592). -/
def setHostCertificate (c : Cfg) (s : St) (f : Fmt) (der : Bytes) (alloc : Bool) : Bool × St :=
  let r := certScan c s f
  let dest := r.1.getD s.count
  if maxKeys ≤ dest then (false, s)
  else
    let u := updateHostCertificates c s r.2 (some dest) alloc
    if u.1 then
      let s := u.2
      let s := if (s.slots dest).fmt = some f then s
        else write { s with count := s.count + 1 } dest { s.slots dest with fmt := some f }
      (true, refresh c (write s dest { s.slots dest with cert := some der }))
    else (false, u.2)

/-- `SetHostPrivateKey` (src/internal.c:2597-2646). -/
def setHostPrivateKey (c : Cfg) (s : St) (f : Fmt) (der : Bytes) (alloc : Bool) : Bool × St :=
  let dest := (find s f).getD s.count
  if maxKeys ≤ dest then (false, s)
  else
    let s := if (s.slots dest).fmt = some f then s
      else write { s with count := s.count + 1 } dest { s.slots dest with fmt := some f }
    let s := write s dest { s.slots dest with key := some der }
    let u := updateHostCertificates c s (some dest) none alloc
    if u.1 then (true, refresh c u.2) else (false, u.2)

/-- The formats of `wolfSSH_ProcessBuffer`; the others are refused (src/internal.c:2939-2944). -/
inductive Format where
  | asn1 | raw | pem | openssh
  deriving DecidableEq, Repr

/-- What the libraries and decoders give: the DER of a PEM key or certificate, the contents of an OpenSSH PEM, and the
type of a private key (ASN.1, OpenSSH) or of the key in a certificate. -/
structure Lib where
  keyPem : Bytes → Option Bytes
  certPem : Bytes → Option Bytes
  osshPem : Bytes → Option Bytes
  asn1 : Bytes → Option Key
  ossh : Bytes → Option Key
  certKey : Bytes → Option Key

/-- The part of `wolfSSH_ProcessBuffer` that makes DER of the input (src/internal.c:2968-3050); `none`: refused. -/
def derOf (l : Lib) (isKey : Bool) (fmt : Format) (inp : Bytes) : Option Bytes :=
  if inp = [] then none
  else match fmt with
  | .asn1 => if inp.head? = some 0x30 then some inp else none
  | .raw => if inp.head? = some 0x30 then some inp else none
  | .openssh => if isKey then (if inp.take 5 = List.replicate 5 0x2d then l.osshPem inp else some inp) else none
  | .pem => if isKey then l.keyPem inp else l.certPem inp

def isComposite : Key → Bool
  | .composite _ => true
  | _ => false

/-- The type of a private key, and whether it is taken (src/internal.c:3054-3078). -/
def keyTypeOf (l : Lib) (fmt : Format) (der : Bytes) : Option Key :=
  if fmt = .openssh then (l.ossh der).bind fun k => if isComposite k then some k else none
  else l.asn1 der

/-- `IdentifyCert` (src/internal.c:2415-2433). -/
def identifyCert (c : Cfg) (l : Lib) (der : Bytes) : Option Fmt :=
  (l.certKey der).bind fun k => if certTypeForId c (.plain k) = .plain k then none else some (certTypeForId c (.plain k))

/-- A call of the application: `wolfSSH_CTX_UsePrivateKey_buffer` (src/ssh.c:3176-3189) or `wolfSSH_CTX_UseCert_buffer`
(src/ssh.c:3196-3208). -/
structure Call where
  isKey : Bool
  fmt : Format
  inp : Bytes
  alloc : Bool := true

/-- `wolfSSH_ProcessBuffer` (src/internal.c:2925-3108) for private keys and certificates. -/
def process (c : Cfg) (l : Lib) (s : St) (a : Call) : Bool × St :=
  match derOf l a.isKey a.fmt a.inp with
  | none => (false, s)
  | some der =>
    if a.isKey then
      match keyTypeOf l a.fmt der with
      | none => (false, s)
      | some k => setHostPrivateKey c s (.plain k) der a.alloc
    else
      match identifyCert c l der with
      | none => (false, s)
      | some f => setHostCertificate c s f der a.alloc

/-- A history of calls on a context. -/
def run (c : Cfg) (l : Lib) : List Call → St → St
  | [], s => s
  | a :: as, s => run c l as (process c l s a).2

/-- What the server signs a key exchange with for a format (src/internal.c:15753-15761). -/
def chosen (s : St) (f : Fmt) : Option Slot := (find s f).map s.slots

end Wolf.HostKeys
