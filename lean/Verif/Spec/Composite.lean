import Verif.Model.Composite
import Verif.Spec.Wire
/-!
# Specification: composite signatures

A composite signature is one of ML-DSA followed by a traditional one; both must be good, for the same message bound to the name of
the combination. Of the model only the names of algorithms and the parameters are used.
-/

namespace Spec.Composite
open Wolf.Composite (Alg Trad Hash Lib)
open Spec.Wire (encString)

def asc (s : String) : List UInt8 := s.toUTF8.toList

/-- The names of the combinations. -/
def label : Alg → List UInt8
  | .es44 => asc "COMPSIG-MLDSA44-ECDSA-P256-SHA256"
  | .es65 => asc "COMPSIG-MLDSA65-ECDSA-P256-SHA512"
  | .es87 => asc "COMPSIG-MLDSA87-ECDSA-P384-SHA512"
  | .ed44 => asc "COMPSIG-MLDSA44-Ed25519-SHA512"
  | .ed65 => asc "COMPSIG-MLDSA65-Ed25519-SHA512"
  | .ed87 => asc "COMPSIG-MLDSA87-Ed448-SHAKE256"

/-- The hash and the size of its digest. -/
def hashOf : Alg → Hash × Nat
  | .es44 => (.sha256, 32)
  | .ed87 => (.shake256, 64)
  | _ => (.sha512, 64)

/-- Sizes of signatures and public keys of ML-DSA (FIPS 204, table 2). -/
def pqSizes : Alg → Nat × Nat
  | .es44 | .ed44 => (2420, 1312)
  | .es65 | .ed65 => (3309, 1952)
  | .es87 | .ed87 => (4627, 2592)

/-- Size of a coordinate, or kind and sizes of a signature and a key of EdDSA. -/
inductive Kind where
  | ecdsa (coordinate : Nat)
  | eddsa (t : Trad) (sig key : Nat)

def kind : Alg → Kind
  | .es44 | .es65 => .ecdsa 32
  | .es87 => .ecdsa 48
  | .ed44 | .ed65 => .eddsa .ed25519 64 32
  | .ed87 => .eddsa .ed448 114 57

/-- Size of the traditional public key. -/
def tradKeySize (a : Alg) : Nat :=
  match kind a with
  | .ecdsa n => 1 + 2 * n
  | .eddsa _ _ k => k

/-- The message that both parts sign: prefix, name of the combination, an empty context, and the digest. -/
def bound (a : Alg) (digest : List UInt8) : List UInt8 :=
  asc "CompositeAlgorithmSignatures2025" ++ (label a ++ (0 :: digest))

/-- `d` is the digest of `m`. -/
def Digest (L : Lib) (a : Alg) (m d : List UInt8) : Prop := L.hash (hashOf a).1 (hashOf a).2 m = some d

/-- The traditional part is good. -/
def TradGood (L : Lib) (a : Alg) (key m t : List UInt8) : Prop :=
  match kind a with
  | .ecdsa n => ∃ r s d, t = encString r ++ encString s ∧ t.length ≤ 2 * (4 + n + 1) ∧ Digest L a m d ∧
      L.ecc key (hashOf a).1 d r s = true
  | .eddsa k n _ => t.length = n ∧ L.ed k key m t = true

/-- A composite signature of a message is good for the two keys. -/
def Good (L : Lib) (a : Alg) (pq trad sig msg : List UInt8) : Prop :=
  ∃ d x t, Digest L a msg d ∧ sig = x ++ t ∧ x.length = (pqSizes a).1 ∧
    L.mldsa a pq (label a) (bound a d) x = true ∧ TradGood L a trad (bound a d) t

/-- A blob with the name of the algorithm and the two keys. -/
def KeyBlob (a : Alg) (algo blob pq trad : List UInt8) : Prop :=
  ∃ rest, blob = encString algo ++ (encString (pq ++ trad) ++ rest) ∧ pq.length = (pqSizes a).2 ∧ trad.length = tradKeySize a

/-- A signature as in RFC 4252, section 7. -/
def SigBlob (algo signature sig : List UInt8) : Prop :=
  ∃ rest, signature = encString algo ++ (encString sig ++ rest)

/-- A request of RFC 4252, section 7, from the user name up to the key. -/
def request (user service algo blob : List UInt8) : List UInt8 :=
  encString user ++ (encString service ++ (encString (asc "publickey") ++ (1 :: (encString algo ++ encString blob))))

/-- What is signed in it: the session id, the number of the message, and the request. -/
def toSign (session user service algo blob : List UInt8) : List UInt8 :=
  encString session ++ (50 :: request user service algo blob)

/-- What is assumed of private keys: what they sign verifies with the public ones, in whatever length its numbers are written. -/
structure Matches (L : Lib) (S : Wolf.Composite.Signer) (a : Alg) (pq trad : List UInt8) : Prop where
  mldsa : ∀ ctx m x, S.mldsa ctx m = some x → L.mldsa a pq ctx m x = true
  ecc : ∀ d r s r' s', S.ecc d = some (r, s) → Spec.Wire.beNat r' = Spec.Wire.beNat r → Spec.Wire.beNat s' = Spec.Wire.beNat s →
    L.ecc trad (hashOf a).1 d r' s' = true
  ed : ∀ m x k n z, kind a = .eddsa k n z → S.ed m = some x → L.ed k trad m x = true

/-- And that they answer, with signatures of the right sizes. -/
structure Answers (L : Lib) (S : Wolf.Composite.Signer) (a : Alg) : Prop where
  hash : ∀ m, ∃ d, Digest L a m d
  mldsa : ∀ m, ∃ x, S.mldsa (label a) m = some x ∧ x.length = (pqSizes a).1
  ecc : ∀ n d, kind a = .ecdsa n → ∃ r s, S.ecc d = some (r, s) ∧ r.length ≤ n ∧ s.length ≤ n
  ed : ∀ m k n z, kind a = .eddsa k n z → ∃ x, S.ed m = some x ∧ x.length = n

end Spec.Composite
