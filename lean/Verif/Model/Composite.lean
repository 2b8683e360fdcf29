import Verif.Model.CertMan
/-!
# Composite signatures of ML-DSA with ECDSA or EdDSA

`WS_GetCompositeParams`, `CompositeEccSign`, `CompositeEccVerify`, `CompositeEd25519Sign`, `CompositeEd25519Verify` and those for
Ed448, `BuildCompositeMPrime`, `VerifyMlDsaComposite`, `SignHMlDsaComposite` (src/internal.c:21503-22411),
`BuildUserAuthRequestMlDsaComposite` and `DoUserAuthRequestMlDsaComposite` (src/internal.c:22465-22769).

Hashes and the parts of a signature are parameters, and a public key is the bytes that are imported. Everything is compiled in, and
`WOLFSSH_SMALL_STACK` is not defined; allocations succeed. A buffer is the list of its bytes.
-/

namespace Wolf.Composite
open Wolf (Byte Bytes add32)
open Wolf.Wire (Res getStringRef deref c32toa)
open Wolf.CertMan (cut)

/-- The algorithms: `ID_MLDSA44_ES256`, `ID_MLDSA65_ES256`, `ID_MLDSA87_ES384`, `ID_MLDSA44_ED25519`, `ID_MLDSA65_ED25519`,
`ID_MLDSA87_ED448`. -/
inductive Alg where
  | es44 | es65 | es87 | ed44 | ed65 | ed87
  deriving DecidableEq, Repr

/-- `tradType`. -/
inductive Trad where
  | ecc | ed25519 | ed448
  deriving DecidableEq, Repr

/-- `tradHashId`. -/
inductive Hash where
  | sha256 | sha512 | shake256
  deriving DecidableEq, Repr

/-- `CompositeParams` (wolfssh/internal.h:1400-1414), what is used here. -/
structure Params where
  sigSz : Nat
  pubSz : Nat
  trad : Trad
  hash : Hash
  hashSz : Nat
  label : Bytes
  tradPubSz : Nat
  tradSigSz : Nat
  deriving DecidableEq, Repr

/-- `"COMPSIG-MLDSA"`. -/
def compsig : Bytes := [67, 79, 77, 80, 83, 73, 71, 45, 77, 76, 68, 83, 65]

/-- `"-ECDSA-P"`, `"-SHA"`, `"-Ed25519"`. -/
def ecdsaP : Bytes := [45, 69, 67, 68, 83, 65, 45, 80]
def sha : Bytes := [45, 83, 72, 65]
def ed25519 : Bytes := [45, 69, 100, 50, 53, 53, 49, 57]

/-- `WS_GetCompositeParams` (src/internal.c:21503-21627); sizes of wolfCrypt filled in. -/
def params : Alg → Params
  | .es44 => ⟨2420, 1312, .ecc, .sha256, 32, compsig ++ [52, 52] ++ ecdsaP ++ [50, 53, 54] ++ sha ++ [50, 53, 54], 1 + 2 * 32, 2 * (4 + 32 + 1)⟩
  | .es65 => ⟨3309, 1952, .ecc, .sha512, 64, compsig ++ [54, 53] ++ ecdsaP ++ [50, 53, 54] ++ sha ++ [53, 49, 50], 1 + 2 * 32, 2 * (4 + 32 + 1)⟩
  | .es87 => ⟨4627, 2592, .ecc, .sha512, 64, compsig ++ [56, 55] ++ ecdsaP ++ [51, 56, 52] ++ sha ++ [53, 49, 50], 1 + 2 * 48, 2 * (4 + 48 + 1)⟩
  | .ed44 => ⟨2420, 1312, .ed25519, .sha512, 64, compsig ++ [52, 52] ++ ed25519 ++ sha ++ [53, 49, 50], 32, 64⟩
  | .ed65 => ⟨3309, 1952, .ed25519, .sha512, 64, compsig ++ [54, 53] ++ ed25519 ++ sha ++ [53, 49, 50], 32, 64⟩
  | .ed87 => ⟨4627, 2592, .ed448, .shake256, 64, compsig ++ [56, 55, 45, 69, 100, 52, 52, 56, 45, 83, 72, 65, 75, 69, 50, 53, 54], 57, 114⟩

/-- wolfCrypt: hashes that may fail; `ecc` is `wc_ecc_rs_raw_to_sig` with `wc_SignatureVerifyHash`; `ed` verifies messages, and
`mldsa` with a context. `imports` tells whether a public key is taken, for ML-DSA (`none`) and the traditional ones. -/
structure Lib where
  hash : Hash → Nat → Bytes → Option Bytes
  ecc : Bytes → Hash → Bytes → Bytes → Bytes → Bool
  ed : Trad → Bytes → Bytes → Bytes → Bool
  mldsa : Alg → Bytes → Bytes → Bytes → Bytes → Bool
  imports : Alg → Option Trad → Bytes → Bool

/-- Return codes. -/
inductive Ret where
  | success | badArgument | buffer | keyFormat | crypto | ecc | ed25519 | ed448 | mldsa | algoId | ub
  deriving DecidableEq, Repr

/-- `"CompositeAlgorithmSignatures2025"` (wolfssh/internal.h:1377). -/
def domain : Bytes :=
  [67, 111, 109, 112, 111, 115, 105, 116, 101, 65, 108, 103, 111, 114, 105, 116, 104, 109, 83, 105, 103, 110, 97, 116, 117, 114, 101, 115, 50, 48,
    50, 53]

/-- `BuildCompositeMPrime` (src/internal.c:22106-22116). -/
def mPrime (p : Params) (h : Bytes) : Bytes := domain ++ p.label ++ [0] ++ h

/-- `CompositeEccVerify` (src/internal.c:21802-21863). -/
def eccVerify (L : Lib) (p : Params) (key sig m : Bytes) : Ret :=
  match getStringRef sig sig.length 0 with
  | .ub => .ub
  | .err .. => .buffer
  | .ok r i => match getStringRef sig sig.length i with
    | .ub => .ub
    | .err .. => .buffer
    | .ok s j =>
      if j ≠ sig.length then .keyFormat
      else match deref sig r, deref sig s with
      | some rb, some sb => match L.hash p.hash p.hashSz m with
        | none => .ecc
        | some d => if L.ecc key p.hash d rb sb then .success else .ecc
      | _, _ => .ub

/-- `ops->verify` (src/internal.c:21802-21863, 21945-21967, 22045-22067). -/
def tradVerify (L : Lib) (p : Params) (key sig m : Bytes) : Ret :=
  match p.trad with
  | .ecc => eccVerify L p key sig m
  | .ed25519 => if L.ed .ed25519 key m sig then .success else .ed25519
  | .ed448 => if L.ed .ed448 key m sig then .success else .ed448

/-- `VerifyMlDsaComposite` (src/internal.c:22122-22227). -/
def verify (L : Lib) (a : Alg) (pq trad sig msg : Bytes) : Ret :=
  if sig.length < (params a).sigSz then .keyFormat
  else if (params a).trad ≠ .ecc ∧ sig.length ≠ (params a).sigSz + (params a).tradSigSz then .keyFormat
  else if (params a).trad = .ecc ∧ (params a).tradSigSz < sig.length - (params a).sigSz then .keyFormat
  else match L.hash (params a).hash (params a).hashSz msg with
  | none => .crypto
  | some h => match tradVerify L (params a) trad (sig.drop (params a).sigSz) (mPrime (params a) h) with
    | .success => if L.mldsa a pq (params a).label (mPrime (params a) h) (sig.take (params a).sigSz) then .success else .mldsa
    | e => e

/-- The private keys: what wolfCrypt answers to one call. `ecc` is `wc_ecc_sign_hash` with `wc_ecc_sig_to_rs`. -/
structure Signer where
  mldsa : Bytes → Bytes → Option Bytes
  ecc : Bytes → Option (Bytes × Bytes)
  ed : Bytes → Option Bytes

/-- Is a byte of padding needed (src/internal.c:21747-21748)? -/
def pad (r : Bytes) : Bytes := if r.headD 0 &&& 0x80 ≠ 0 then [0] else []

/-- `CompositeEccSign` (src/internal.c:21696-21795), with room for `tradSigSz` bytes. -/
def eccSign (L : Lib) (S : Signer) (p : Params) (m : Bytes) : Except Ret Bytes :=
  match L.hash p.hash p.hashSz m with
  | none => .error .ecc
  | some d => match S.ecc d with
    | none => .error .ecc
    | some (r, s) =>
      if p.tradSigSz < 2 * 4 + r.length + (pad r).length + s.length + (pad s).length then .error .badArgument
      else .ok (c32toa (r.length + (pad r).length) ++ pad r ++ r ++ c32toa (s.length + (pad s).length) ++ pad s ++ s)

/-- `CompositeEd25519Sign`, `CompositeEd448Sign` (src/internal.c:21916-21943, 22015-22043), with room for `tradSigSz` bytes. -/
def edSign (S : Signer) (p : Params) (e : Ret) (size : Nat) (m : Bytes) : Except Ret Bytes :=
  if p.tradSigSz < size then .error .badArgument
  else match S.ed m with
  | none => .error e
  | some s => if s.length ≠ size then .error e else .ok s

/-- `ops->sign`. -/
def tradSign (L : Lib) (S : Signer) (p : Params) (m : Bytes) : Except Ret Bytes :=
  match p.trad with
  | .ecc => eccSign L S p m
  | .ed25519 => edSign S p .ed25519 64 m
  | .ed448 => edSign S p .ed448 114 m

/-- `SignHMlDsaComposite` (src/internal.c:22307-22411) for a buffer of `cap` bytes, and the same in
`BuildUserAuthRequestMlDsaComposite` (src/internal.c:22496-22580). -/
def sign (L : Lib) (S : Signer) (a : Alg) (cap : Nat) (msg : Bytes) : Except Ret Bytes :=
  if cap < (params a).sigSz + (params a).tradSigSz then .error .badArgument
  else match L.hash (params a).hash (params a).hashSz msg with
  | none => .error .crypto
  | some h => match S.mldsa (params a).label (mPrime (params a) h) with
    | none => .error .mldsa
    | some x =>
      if x.length ≠ (params a).sigSz then .error .mldsa
      else match tradSign L S (params a) (mPrime (params a) h) with
      | .error e => .error e
      | .ok t => .ok (x ++ t)

/-- What a client signs: the session id with its length, and the request so far (src/internal.c:22509-22524). -/
def clientData (session req : Bytes) : Bytes := c32toa session.length ++ session ++ req

/-- The end of `BuildUserAuthRequestMlDsaComposite` (src/internal.c:22582-22597): what it appends to the request `req`, which begins
with the number of the message. -/
def buildAuth (L : Lib) (S : Signer) (a : Alg) (algo session req : Bytes) : Except Ret Bytes :=
  match sign L S a ((params a).sigSz + (params a).tradSigSz) (clientData session req) with
  | .error e => .error e
  | .ok sig => .ok (c32toa (4 * 2 + algo.length + sig.length) ++ (c32toa algo.length ++ algo ++ (c32toa sig.length ++ sig)))

/-- The room that is reserved for it by `PrepareUserAuthRequestMlDsaComposite` (src/internal.c:22448-22453). -/
def reserved (a : Alg) (algo : Bytes) : Nat := 4 * 3 + ((params a).sigSz + (params a).tradSigSz) + algo.length

/-- The public key of a request (src/internal.c:22666-22697). -/
def importKey (L : Lib) (a : Alg) (algo blob : Bytes) : Except Ret (Bytes × Bytes) :=
  match cut blob blob.length 0 with
  | .ub => .error .ub
  | .err .. => .error .crypto
  | .ok t i =>
    if t ≠ algo then .error .algoId
    else match getStringRef blob blob.length i with
    | .ub => .error .ub
    | .err .. => .error .crypto
    | .ok r _ =>
      if r.sz ≠ (params a).pubSz + (params a).tradPubSz then .error .keyFormat
      else match deref blob r with
      | none => .error .ub
      | some pub =>
        if L.imports a none (pub.take (params a).pubSz) = false then .error .crypto
        else if L.imports a (some (params a).trad) (pub.drop (params a).pubSz) = false then .error .crypto
        else .ok (pub.take (params a).pubSz, pub.drop (params a).pubSz)

/-- The lengths of what was read from the request: `usernameSz`, `serviceNameSz`, `authNameSz`. -/
structure Sizes where
  user : Nat
  service : Nat
  auth : Nat
  deriving DecidableEq, Repr

/-- `dataToSignSz` (src/internal.c:22728-22732). -/
def dataSz (z : Sizes) (algo blob : Bytes) : Nat :=
  add32 (add32 (add32 (add32 (add32 (add32 z.user z.service) z.auth) 1) algo.length) blob.length) (4 * 5)

/-- `DoUserAuthRequestMlDsaComposite` (src/internal.c:22626-22769): `mem` is the message from `dataToSign` on. -/
def serverCheck (L : Lib) (a : Alg) (algo blob signature session mem : Bytes) (z : Sizes) : Ret :=
  match importKey L a algo blob with
  | .error e => e
  | .ok (pq, trad) => match cut signature signature.length 0 with
    | .ub => .ub
    | .err .. => .buffer
    | .ok t i =>
      if t ≠ algo then .algoId
      else match cut signature signature.length i with
      | .ub => .ub
      | .err .. => .buffer
      | .ok sig _ =>
        if mem.length < dataSz z algo blob then .ub
        else verify L a pq trad sig (c32toa session.length ++ session ++ [50] ++ mem.take (dataSz z algo blob))

end Wolf.Composite
