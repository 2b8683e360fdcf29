import Verif.Model.Wire
/-!
# Verifying chains of X.509 certificates

`wolfSSH_CERTMAN_LoadRootCA_buffer`, `wolfSSH_CERTMAN_VerifyCerts_buffer` with `CertManIntermediateIsCA`, and `CheckProfile`
(src/certman.c:174-644), and the parsing of the chain that a peer sends, `ParseCertChain` and `ParseCertChainVerify`
(src/internal.c:6257-6369).

The certificate manager of wolfSSL is a list of certificates it trusts, and its answers are parameters: whether a certificate
verifies against the list, whether one can be loaded, what OCSP says, and what is decoded from a certificate. One manager serves
all connections of a context, so the list is the state.
-/

namespace Wolf.CertMan
open Wolf (Byte Bytes add32)
open Wolf.Wire (Res getSize getUint32)

/-- Answers of `wolfSSL_CertManagerVerifyBuffer`. -/
inductive VRet where
  | ok | noSigner | afterDate | sigConfirm | other
  deriving DecidableEq, Repr

/-- Answers of `wolfSSL_CertManagerCheckOCSP`. -/
inductive ORet where
  | ok | revoked | needUrl | other
  deriving DecidableEq, Repr

/-- What `CertManIntermediateIsCA` looks at: `isCA`, `selfSigned`, and the bit `keyCertSign` if there is a key usage. -/
structure Inter where
  isCA : Bool
  selfSigned : Bool
  certSign : Option Bool
  deriving DecidableEq, Repr

/-- The format of a date. -/
inductive Fmt where
  | utc | general | other
  deriving DecidableEq, Repr

/-- Algorithms of signatures. -/
inductive Alg where
  | sha256Rsa | sha384Rsa | sha512Rsa | sha256Ecdsa | sha384Ecdsa | sha512Ecdsa | other
  deriving DecidableEq, Repr

/-- What is looked at in a leaf: the fields of `DecodedCert`. `keyUsage` is `none` without the extension; `notAfter` is `none` if
the date cannot be read, and otherwise `tm_year` and the format; `ca` is the hash of the name of the signer, if one was found;
`fascn` and `uuid` tell whether an alternative name of that kind is there. -/
structure Leaf where
  isCA : Bool
  keyUsage : Option Nat
  country : Bytes
  authKeyId : Bytes
  subjKeyId : Bytes
  policy0 : Bytes
  policy1 : Bytes
  notAfter : Option (Int × Fmt)
  ca : Option Bytes
  issuerHash : Bytes
  pathLength : Nat
  fascn : Bool
  uuid : Bool
  clientAuth : Bool
  sshMscl : Bool
  alg : Alg
  deriving DecidableEq, Repr

/-- wolfSSL and the build: `ocsp` is `none` without `HAVE_OCSP`, `fpki` is false with `WOLFSSH_NO_FPKI`. The numbers are times. -/
structure Lib where
  verify : List Bytes → Nat → Bytes → VRet
  loads : List Bytes → Nat → Bytes → Bool
  ocsp : Option (Nat → Bytes → ORet)
  inter : Bytes → Option Inter
  leaf : List Bytes → Bytes → Option Leaf
  fpki : Bool

/-- Return codes; `ub` is a NULL pointer that is followed or a read outside of the message. -/
inductive Ret where
  | success | badArgument | memory | asnParse | buffer | noSigner | expired | badSig | revoked | other | profile | load | fatal | ub
  deriving DecidableEq, Repr

/-- `CertManIntermediateIsCA` (src/certman.c:211-252). -/
def interIsCA (L : Lib) (c : Bytes) : Bool :=
  match L.inter c with
  | none => false
  | some i => if i.isCA && !i.selfSigned && i.certSign == some false then false else i.isCA

/-- `wolfSSH_CERTMAN_LoadRootCA_buffer` (src/certman.c:175-192). -/
def loadRoot (L : Lib) (now : Nat) (S : List Bytes) (c : Bytes) : Ret × List Bytes :=
  if c = [] then (.badArgument, S) else if L.loads S now c then (.success, S ++ [c]) else (.load, S)

/-- `wolfSSL_CertManagerVerifyBuffer` and its codes (src/certman.c:317-340). -/
def signature (L : Lib) (now : Nat) (S : List Bytes) (c : Bytes) : Ret :=
  match L.verify S now c with
  | .ok => .success
  | .noSigner => .noSigner
  | .afterDate => .expired
  | .sigConfirm => .badSig
  | .other => .other

/-- OCSP (src/certman.c:342-366). -/
def revocation (L : Lib) (now : Nat) (c : Bytes) : Ret :=
  match L.ocsp with
  | none => .success
  | some f => match f now c with
    | .ok => .success
    | .revoked => .revoked
    | .needUrl => .success
    | .other => .other

/-- The loop over the chain (src/certman.c:314-390), here from its last certificate to the leaf. -/
def walk (L : Lib) (now : Nat) : List Bytes → List Bytes → Ret × List Bytes
  | S, [] => (.success, S)
  | S, c :: cs =>
    if signature L now S c ≠ .success then (signature L now S c, S)
    else if revocation L now c ≠ .success then (revocation L now c, S)
    else if cs = [] then (.success, S)
    else if interIsCA L c then
      match loadRoot L now S c with
      | (.success, S') => walk L now S' cs
      | (e, S') => (e, S')
    else (.noSigner, S)

/-- `KEYUSE_DIGITAL_SIG`. -/
def digitalSig : Nat := 0x80

/-- The worksheets (src/certman.c:197-201). -/
inductive Sheet where
  | six | ten | sixteen
  deriving DecidableEq, Repr

/-- `"2.16.840.1.101.3.2.1.3."`, which all policies begin with. -/
def policyBase : Bytes := [50, 46, 49, 54, 46, 56, 52, 48, 46, 49, 46, 49, 48, 49, 46, 51, 46, 50, 46, 49, 46, 51, 46]

/-- The policies of a worksheet (src/certman.c:453-467). -/
def policies : Sheet → Bytes × Option Bytes
  | .six => (policyBase ++ [49, 51], none)
  | .ten => (policyBase ++ [52, 48], some (policyBase ++ [52, 49]))
  | .sixteen => (policyBase ++ [52, 53], none)

/-- Whether the extended key usage for SSH is demanded (src/certman.c:453-467). -/
def needsSsh : Sheet → Bool
  | .six => true
  | .ten => false
  | .sixteen => true

/-- Is a policy of the worksheet one of the first two of the certificate (src/certman.c:497-508)? -/
def policyOk (s : Sheet) (c : Leaf) : Bool :=
  (match (policies s).2 with
    | some p => p == c.policy0 || p == c.policy1
    | none => false) || ((policies s).1 == c.policy0 || (policies s).1 == c.policy1)

/-- The format of the date (src/certman.c:510-540). -/
def dateOk (c : Leaf) : Bool :=
  match c.notAfter with
  | none => false
  | some (y, f) => if y ≤ 149 ∧ f ≠ .utc then false else if 149 < y ∧ f ≠ .general then false else true

/-- The algorithms (src/certman.c:610-620). -/
def algOk : Alg → Bool
  | .other => false
  | _ => true

/-- `CheckProfile` (src/certman.c:446-644); `none` if the signer is not known and looked at. -/
def checkProfile (s : Sheet) (c : Leaf) : Option Bool :=
  if c.keyUsage ≠ some digitalSig then some false
  else if c.country ≠ [85, 83] then some false
  else if c.authKeyId = c.subjKeyId then some false
  else if !policyOk s c then some false
  else if !dateOk c then some false
  else match c.ca with
  | none => none
  | some h =>
    if h ≠ c.issuerHash then some false
    else if c.pathLength ≠ 0 then some false
    else if s = .six ∧ c.fascn = false then some false
    else if c.uuid = false then some false
    else if c.clientAuth = false ∨ (needsSsh s = true ∧ c.sshMscl = false) then some false
    else some (algOk c.alg)

/-- One of the profiles (src/certman.c:417-422). -/
def anyProfile (c : Leaf) : Option Bool :=
  match checkProfile .six c with
  | some false => match checkProfile .ten c with
    | some false => checkProfile .sixteen c
    | r => r
  | r => r

/-- The checks of the leaf (src/certman.c:394-433). -/
def leafCheck (L : Lib) (S : List Bytes) (c : Bytes) : Ret :=
  match L.leaf S c with
  | none => .other
  | some d =>
    if d.isCA then .profile
    else if L.fpki then
      match anyProfile d with
      | some true => .success
      | some false => .profile
      | none => .ub
    else .success

/-- A length and that many bytes; where they begin must be inside of the memory. -/
def cut (mem : Bytes) (len idx : Nat) : Res Bytes :=
  match getSize mem len idx with
  | .ok sz i => if mem.length < i + sz then .ub else .ok ((mem.drop i).take sz) (add32 i sz)
  | .err e i => .err e i
  | .ub => .ub

/-- The certificates in a buffer (src/certman.c:283-312), for a `certsCount` of `n`. -/
def split (mem : Bytes) (len : Nat) : Nat → Nat → Except Ret (List Bytes)
  | 0, _ => .ok []
  | n + 1, idx =>
    if len < add32 idx 4 then .error .asnParse
    else match cut mem len idx with
    | .err .. => .error .buffer
    | .ub => .error .ub
    | .ok c i =>
      if len < i then .error .asnParse
      else match split mem len n i with
      | .ok cs => .ok (c :: cs)
      | .error e => .error e

/-- `MAX_CHAIN_DEPTH` (src/certman.c:206). -/
def maxDepth : Nat := 9

/-- `wolfSSH_CERTMAN_VerifyCerts_buffer` (src/certman.c:256-442); `alloc`: memory can be allocated. The result is the return
code and the trusted certificates afterwards. -/
def verifyCerts (L : Lib) (alloc : Bool) (now : Nat) (S : List Bytes) (mem : Bytes) (len count : Nat) : Ret × List Bytes :=
  if count = 0 then (.badArgument, S)
  else if maxDepth < count then (.badArgument, S)
  else if alloc = false then (.memory, S)
  else match split mem len count 0 with
  | .error e => (e, S)
  | .ok cs =>
    match walk L now S cs.reverse with
    | (.success, S') => match cs.head? with
      | some c => (leafCheck L S' c, S')
      | none => (.ub, S')
    | (e, S') => (e, S')

/-- The loop of `ParseCertChain` (src/internal.c:6292-6310): the certificates, the size of the chain, and where it ends. -/
def chainLoop (mem : Bytes) (len : Nat) : Nat → Nat → Res (List Bytes × Nat)
  | 0, idx => .ok ([], 0) idx
  | n + 1, idx =>
    match cut mem len idx with
    | .err e i => .err e i
    | .ub => .ub
    | .ok c i => match chainLoop mem len n i with
      | .ok (cs, sz) j => .ok (c :: cs, add32 sz (add32 c.length 4)) j
      | .err e j => .err e j
      | .ub => .ub

/-- What `ParseCertChain` gives: where the chain begins, its size, the count, and the leaf. -/
structure Chain where
  start : Nat
  size : Nat
  count : Nat
  leaf : Bytes
  deriving DecidableEq, Repr

/-- `ParseCertChain` (src/internal.c:6257-6341). -/
def parseChain (mem : Bytes) (len : Nat) : Except Ret Chain :=
  match cut mem len 0 with
  | .err .. => .error .buffer
  | .ub => .error .ub
  | .ok _ i => match getUint32 mem len i with
    | .err .. => .error .buffer
    | .ub => .error .ub
    | .ok count j =>
      if count = 0 then .error .fatal
      else match chainLoop mem len count j with
      | .err .. => .error .buffer
      | .ub => .error .ub
      | .ok (cs, sz) k => match getUint32 mem len k with
        | .err .. => .error .buffer
        | .ub => .error .ub
        | .ok ocsp _ => if count < ocsp then .error .fatal else .ok ⟨j, sz, count, cs.headD []⟩

/-- `ParseCertChainVerify` (src/internal.c:6351-6369): the leaf that is given back, which is used only after success. -/
def parseChainVerify (L : Lib) (alloc : Bool) (now : Nat) (S : List Bytes) (mem : Bytes) (len : Nat) : (Ret × List Bytes) × Bytes :=
  match parseChain mem len with
  | .error e => ((e, S), [])
  | .ok c => (verifyCerts L alloc now S (mem.drop c.start) c.size c.count, c.leaf)

/-- What happens to a manager: a root is loaded by the application, or the chain of a peer is verified. -/
inductive Event where
  | load (now : Nat) (c : Bytes)
  | peer (alloc : Bool) (now : Nat) (msg : Bytes)
  deriving DecidableEq, Repr

/-- The trusted certificates after an event. -/
def step (L : Lib) (S : List Bytes) : Event → List Bytes
  | .load now c => (loadRoot L now S c).2
  | .peer alloc now msg => (parseChainVerify L alloc now S msg msg.length).1.2

/-- The trusted certificates after a history, of a manager that begins with none. -/
def run (L : Lib) (es : List Event) : List Bytes := es.foldl (step L) []

end Wolf.CertMan
