import Verif.Model.OsshKey
import Verif.Spec.OsshCert
/-!
# Private keys in OpenSSH's format: the format (PROTOCOL.key)

A key file as a value and its encoding, and what of a key the crypto library has to agree to. Of the model only the
environment and the names of the types are used.
-/

namespace Spec.OsshKey
open Spec.Wire
open Spec.OsshCert (ascii encStrings NonNegative)
open Wolf.OsshKey (Env Kind)

/-- The name of a type of keys. -/
def name : Kind → List UInt8
  | .rsa => ascii "ssh-rsa"
  | .p256 => ascii "ecdsa-sha2-nistp256"
  | .p384 => ascii "ecdsa-sha2-nistp384"
  | .p521 => ascii "ecdsa-sha2-nistp521"
  | .ed25519 => ascii "ssh-ed25519"
  | .ml44 => ascii "ssh-mldsa-44"
  | .ml65 => ascii "ssh-mldsa-65"
  | .ml87 => ascii "ssh-mldsa-87"
  | .ml44p256 => ascii "ssh-mldsa44-es256@wolfssl.com"
  | .ml65p256 => ascii "ssh-mldsa65-es256@wolfssl.com"
  | .ml87p384 => ascii "ssh-mldsa87-es384@wolfssl.com"
  | .ml44ed => ascii "ssh-mldsa44-ed25519@openssh.com"
  | .ml65ed => ascii "ssh-mldsa65-ed25519@wolfssl.com"
  | .ml87ed448 => ascii "ssh-mldsa87-ed448@wolfssl.com"

/-- A file with one key. -/
structure File where
  cipher : List UInt8
  kdf : List UInt8
  kdfOptions : List UInt8
  /-- the public key, in clear -/
  pub : List UInt8
  check : Nat
  kind : Kind
  /-- the numbers and strings of the private key, in their order -/
  parts : List (List UInt8)
  comment : List UInt8
  pad : List UInt8
  /-- what follows -/
  rest : List UInt8

/-- The part that may be encrypted. -/
def privatePart (f : File) : List UInt8 :=
  encUint32 f.check ++ (encUint32 f.check ++ (encString (name f.kind) ++ (encStrings f.parts ++ (encString f.comment ++ f.pad))))

def encode (f : File) : List UInt8 :=
  ascii "openssh-key-v1" ++ [0] ++ (encString f.cipher ++ (encString f.kdf ++ (encString f.kdfOptions ++ (encUint32 1 ++
    (encString f.pub ++ (encString (privatePart f) ++ f.rest))))))

/-- The numbers of an RSA key (n, e, d, the inverse of q, p, q) are not negative; an ECDSA key is its curve, its point and its
number; the others are a public and a private string. -/
def Parts : Kind → List (List UInt8) → Prop
  | .rsa, ps => ps.length = 6 ∧ ∀ p ∈ ps, NonNegative p
  | .p256, ps | .p384, ps | .p521, ps => ∃ c q d, ps = [c, q, d] ∧ NonNegative d
  | _, ps => ∃ pub priv, ps = [pub, priv]

/-- 1, 2, 3, ... -/
def Counts (pad : List UInt8) : Prop := ∀ i, ∀ h : i < pad.length, (pad[i]).toNat = i + 1

/-- The sizes of the public key of ML-DSA, and of the public and private key of the other algorithm of a composite. -/
def sizes : Kind → Nat × Nat × Nat
  | .ml44p256 => (1312, 65, 32)
  | .ml65p256 => (1952, 65, 32)
  | .ml87p384 => (2592, 97, 48)
  | .ml44ed => (1312, 32, 32)
  | .ml65ed => (1952, 32, 32)
  | .ml87ed448 => (2592, 57, 57)
  | _ => (0, 0, 0)

/-- The crypto library has objects to be had, and takes this key: the numbers it is to use are those of the file. A private
Ed25519 string ends with the public key. The two public keys of a composite are the ones of its seed and of its other private key. -/
def Agrees (E : Env) (k : Kind) (ps : List (List UInt8)) : Prop :=
  E.built k = true ∧ E.init = true ∧
  match k, ps with
  | .rsa, ps => E.imports .rsa ps = true
  | .p256, [_, q, d] => E.imports .p256 [d, q] = true
  | .p384, [_, q, d] => E.imports .p384 [d, q] = true
  | .p521, [_, q, d] => E.imports .p521 [d, q] = true
  | .ed25519, [a, ka] => a.length ≤ ka.length ∧ E.imports .ed25519 [ka.take (ka.length - a.length), a] = true
  | .ml44, [pub, priv] => E.params = true ∧ E.imports .ml44 [priv, pub] = true
  | .ml65, [pub, priv] => E.params = true ∧ E.imports .ml65 [priv, pub] = true
  | .ml87, [pub, priv] => E.params = true ∧ E.imports .ml87 [priv, pub] = true
  | k, [pub, priv] =>
    E.params = true ∧ E.tradInit = true ∧
    ∃ mpub tpub seed tpriv, pub = mpub ++ tpub ∧ priv = seed ++ tpriv ∧
      mpub.length = (sizes k).1 ∧ tpub.length = (sizes k).2.1 ∧ seed.length = 32 ∧ tpriv.length = (sizes k).2.2 ∧
      E.seedPub k seed = some mpub ∧ E.tradPub k tpriv tpub = some tpub
  | _, _ => False

/-- As the library reads it: all but the padding of a private part that is no multiple of eight bytes. -/
structure Readable (f : File) : Prop where
  check : f.check < 2 ^ 32
  parts : Parts f.kind f.parts
  pad : (privatePart f).length % 8 = 0 → Counts f.pad

/-- As it is written by OpenSSH, without a passphrase. -/
structure Written (f : File) : Prop where
  cipher : f.cipher = ascii "none"
  kdf : f.kdf = ascii "none"
  kdfOptions : f.kdfOptions = []
  check : f.check < 2 ^ 32
  parts : Parts f.kind f.parts
  whole : (privatePart f).length % 8 = 0
  pad : Counts f.pad
  short : f.pad.length < 8
  rest : f.rest = []

end Spec.OsshKey
