import Verif.Model.CertMan
import Verif.Model.Buffer
import Verif.Model.NameList
/-!
# Host keys in X.509 certificates

`BuildRFC6187Info` (src/internal.c:13571-13685), the part of the exchange hash that covers such a key (src/internal.c:14416-14442),
and the way back: `ParsePubKeyCert`, `ParseECCPubKeyCert`, `ParseRSAPubKeyCert`, `ParseMlDsaPubKeyCert` (src/internal.c:6370-6535),
`InitPubKey` and `FreePubKey` (src/internal.c:6621-6690) for these keys.

The chain is verified by `Wolf.CertMan.parseChainVerify`. What wolfCrypt makes of a certificate and of a key in DER is a parameter.
-/

namespace Wolf.CertKey
open Wolf Wolf.Wire Wolf.NameList
open Wolf.CertMan (Lib Ret parseChainVerify)

/-- The algorithms with certificates. -/
inductive CertId where
  | rsa | p256 | p384 | p521 | ml44 | ml65 | ml87
  deriving DecidableEq, Repr

/-- `cannedKeyAlgoX509RsaNames` and so on (src/internal.c:973-1019). -/
def typeName : CertId → Bytes
  | .rsa => asc "x509v3-ssh-rsa"
  | .p256 => asc "x509v3-ecdsa-sha2-nistp256"
  | .p384 => asc "x509v3-ecdsa-sha2-nistp384"
  | .p521 => asc "x509v3-ecdsa-sha2-nistp521"
  | .ml44 => asc "x509v3-ssh-mldsa-44"
  | .ml65 => asc "x509v3-ssh-mldsa-65"
  | .ml87 => asc "x509v3-ssh-mldsa-87"

/-! ## Building -/

/-- What is written, and by how much the index moves, in order (src/internal.c:13640-13672). -/
def fields (id : CertId) (cert : Bytes) : List (Bytes × Nat) :=
  let name := typeName id
  [ (c32toa (add32 (add32 (4 * 2 + 4 * 2) name.length) cert.length), 4),
    (c32toa name.length, 4),
    (name, name.length),
    (c32toa 1, 4),
    (c32toa cert.length, 4),
    (cert, cert.length),
    (c32toa 0, 4) ]

/-- With an output buffer: each field is written, then the index moves. `none`: outside of the buffer. -/
def emit : List (Bytes × Nat) → Bytes → Nat → Option (Bytes × Nat)
  | [], out, i => some (out, i)
  | (b, n) :: fs, out, i => match Buffer.write out i b with
    | none => none
    | some o => emit fs o (add32 i n)

/-- Without one: the index moves. -/
def skim : List (Bytes × Nat) → Nat → Nat
  | [], i => i
  | (_, n) :: fs, i => skim fs (add32 i n)

/-- Results of `BuildRFC6187Info`: `WS_BAD_ARGUMENT`; written, with the index; or `LENGTH_ONLY_E` with the size. -/
inductive Build where
  | bad | ub
  | wrote (out : Bytes) (idx : Nat)
  | size (n : Nat)
  deriving DecidableEq, Repr

/-- `BuildRFC6187Info` (src/internal.c:13578-13685); `id` is `none` for any other algorithm, `out` is `none` for NULL. -/
def buildInfo (id : Option CertId) (cert : Bytes) (out : Option Bytes) (idx : Nat) : Build :=
  match id with
  | none => .bad
  | some id => match out with
    | some o => match emit (fields id cert) o idx with
      | some (o', i) => .wrote o' i
      | none => .ub
    | none => .size (sub32 (skim (fields id cert) idx) idx)

/-- What the server hashes for its key (src/internal.c:14416-14442): `fresh` is the memory that `WMALLOC` gives for a size, `sz0`
the size before. The result of `BuildRFC6187Info` is not looked at. `none`: undefined behaviour; an error if there is no memory. -/
def hashedKey (id : Option CertId) (cert : Bytes) (sz0 : Nat) (alloc : Bool) (fresh : Nat → Bytes) : Option (Except Ret Bytes) :=
  let sz := match buildInfo id cert none 0 with
    | .size n => n
    | _ => sz0
  if alloc = false then some (.error .memory)
  else match buildInfo id cert (some (fresh sz)) 0 with
    | .ub => none
    | .wrote o _ => if sz ≤ o.length then some (.ok (o.take sz)) else none
    | _ => if sz ≤ (fresh sz).length then some (.ok ((fresh sz).take sz)) else none

/-! ## Reading -/

/-- The kinds of keys. -/
inductive Kind where
  | rsa | ecc | mldsa (level : Nat)
  deriving DecidableEq, Repr

/-- A decoded key: its bytes, and its curve if it has one. -/
structure Key where
  pub : Bytes
  curve : Option Nat
  deriving DecidableEq, Repr

/-- wolfCrypt: whether a certificate is decoded without verification, its key in DER (`wc_GetPubKeyDerFromCert`), whether that is
also given at the second call, and the decoding of keys. -/
structure KLib where
  parses : Bytes → Bool
  pubDer : Bytes → Option Bytes
  copies : Bytes → Bool
  decode : Kind → Bytes → Option Key

/-- Which calls succeed: the allocations in the verification and for the key, the initialisation of the key object, and
`wc_ecc_set_rng` or `wc_MlDsaKey_SetParams`. -/
structure Env where
  chainMem : Bool
  derMem : Bool
  init : Bool
  set : Bool
  deriving DecidableEq, Repr

/-- Calls with an effect on memory: of the key in DER, and of the key object. -/
inductive Ev where
  | derAlloc (n : Nat) | derFree | keyInit | keyFree
  deriving DecidableEq, Repr

/-- `ParsePubKeyCert` (src/internal.c:6374-6414) after the verification, with the first certificate. -/
def leafDer (K : KLib) (e : Env) (leaf : Bytes) : Except Ret Bytes × List Ev :=
  if K.parses leaf = false then (.error .other, [])
  else match K.pubDer leaf with
  | none => (.error .other, [])
  | some der =>
    if e.derMem = false then (.error .memory, [])
    else if K.copies leaf then (.ok der, [.derAlloc der.length])
    else (.error .other, [.derAlloc der.length, .derFree])

/-- `ParsePubKeyCert` (src/internal.c:6374-6414): the key in DER, the calls, and the trusted certificates afterwards. -/
def certDer (L : Lib) (K : KLib) (e : Env) (now : Nat) (S : List Bytes) (mem : Bytes) (len : Nat) :
    Except Ret Bytes × List Ev × List Bytes :=
  match parseChainVerify L e.chainMem now S mem len with
  | ((.success, S'), leaf) => ((leafDer K e leaf).1, (leafDer K e leaf).2, S')
  | ((r, S'), _) => (.error r, [], S')

/-- What is left: the result, the key if it was decoded, `keyAllocated`, the calls, and the trusted certificates. -/
structure Out where
  ret : Ret
  key : Option Key
  allocated : Bool
  ev : List Ev
  store : List Bytes
  deriving DecidableEq, Repr

/-- `ParseECCPubKeyCert` and `ParseRSAPubKeyCert` (src/internal.c:6417-6487) with `InitPubKey` (src/internal.c:6621-6652), after
`ParsePubKeyCert`. Codes of wolfCrypt are `other`. -/
def takeKey (kind : Kind) (K : KLib) (e : Env) (der : Bytes) (ev : List Ev) (S : List Bytes) : Out :=
  if e.init = false then ⟨.other, none, false, ev ++ [.derFree], S⟩
  else if kind = .ecc ∧ e.set = false then ⟨.other, none, true, ev ++ [.keyInit, .derFree], S⟩
  else match K.decode kind der with
  | none => ⟨.other, none, true, ev ++ [.keyInit, .derFree], S⟩
  | some k => ⟨.success, some k, true, ev ++ [.keyInit, .derFree], S⟩

/-- `ParseMlDsaPubKeyCert` (src/internal.c:6490-6535) after `ParsePubKeyCert`; `WS_INVALID_ALGO_ID` is `other`. -/
def takeMlDsa (level : Nat) (K : KLib) (e : Env) (der : Bytes) (ev : List Ev) (S : List Bytes) : Out :=
  if e.init = false then ⟨.other, none, false, ev ++ [.derFree], S⟩
  else if e.set = false then ⟨.other, none, false, ev ++ [.keyInit, .keyFree, .derFree], S⟩
  else match K.decode (.mldsa level) der with
  | none => ⟨.other, none, false, ev ++ [.keyInit, .keyFree, .derFree], S⟩
  | some k => ⟨.success, some k, true, ev ++ [.keyInit, .derFree], S⟩

/-- `ParsePubKey` (src/internal.c:6542-6614) for a negotiated algorithm with certificates, after `ParsePubKeyCert`; the levels are
those of `KeyIdToMlDsaLevel` (src/internal.c:5169-5190). -/
def takeAny (id : CertId) (K : KLib) (e : Env) (der : Bytes) (ev : List Ev) (S : List Bytes) : Out :=
  match id with
  | .rsa => takeKey .rsa K e der ev S
  | .p256 => takeKey .ecc K e der ev S
  | .p384 => takeKey .ecc K e der ev S
  | .p521 => takeKey .ecc K e der ev S
  | .ml44 => takeMlDsa 2 K e der ev S
  | .ml65 => takeMlDsa 3 K e der ev S
  | .ml87 => takeMlDsa 5 K e der ev S

/-- `ParsePubKey` (src/internal.c:6542-6614) for these algorithms. -/
def parseCertKey (L : Lib) (K : KLib) (e : Env) (now : Nat) (S : List Bytes) (id : CertId) (mem : Bytes) (len : Nat) : Out :=
  match certDer L K e now S mem len with
  | (.error r, ev, S') => ⟨r, none, false, ev, S'⟩
  | (.ok der, ev, S') => takeAny id K e der ev S'

/-- The calls up to and with `FreePubKey` (src/internal.c:6655-6690). -/
def finish (o : Out) : List Ev := if o.allocated then o.ev ++ [.keyFree] else o.ev

end Wolf.CertKey
