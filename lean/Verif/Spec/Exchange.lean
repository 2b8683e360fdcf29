import Verif.Spec.Wire
import Verif.Model.KexDh
/-!
# The exchange hash, host keys and signatures (RFC 4253 section 8, RFC 4419 section 3, RFC 5656 section 4)

The data types `HostAlg`, `PubKey`, `Sig`, `Alg` are those of the model.
-/

namespace Spec.Exchange
open Spec.Wire Wolf.KexDh

/-- The additional values of a group exchange; `p` and `g` are the contents of mpints. -/
structure Group where
  min : Nat
  n : Nat
  max : Nat
  p : List UInt8
  g : List UInt8

def encGroup : Option Group → List UInt8
  | none => []
  | some x => encUint32 x.min ++ encUint32 x.n ++ encUint32 x.max ++ encString x.p ++ encString x.g

/-- `H = HASH(V_C || V_S || I_C || I_S || K_S || [min || n || max || p || g] || e || f || K)`, every part with its
length. -/
def hashInput (vc vs ic is ks : List UInt8) (x : Option Group) (e f k : List UInt8) : List UInt8 :=
  encString vc ++ encString vs ++ encString ic ++ encString is ++ encString ks ++ encGroup x ++
  encString e ++ encString f ++ encString k

/-- What stands for the shared secret: an mpint, or for the ML-KEM hybrids the string itself. -/
def IsSecret (alg : Alg) (secret content : List UInt8) : Prop :=
  if alg = .ecdhMlKem ∨ alg = .curve25519MlKem then content = secret else CanonicalMpint content (beNat secret)

/-- `blob` encodes the public key `pk` of the negotiated algorithm. ECDSA and composite keys must carry the negotiated
name, ECDSA keys also the curve. -/
def KeyBlob (a : HostAlg) (blob : List UInt8) : PubKey → Prop
  | .rsa e n => a.family = .rsa ∧ ∃ name rest, blob = encString name ++ encString e ++ encString n ++ rest
  | .ecc q => a.family = .ecc ∧ ∃ rest, blob = encString a.name ++ encString a.curve ++ encString q ++ rest
  | .raw q => ∃ named name rest, a.family = .raw named ∧ (named = true → name = a.name) ∧
      blob = encString name ++ encString q ++ rest

/-- `block` is a signature block under the negotiated signature name with the signature `s`. -/
def SigBlock (a : HostAlg) (block : List UInt8) : Sig → Prop
  | .blob s => a.family ≠ .ecc ∧ ∃ rest, block = encString a.sigName ++ encString s ++ rest
  | .rs r s => a.family = .ecc ∧ ∃ rest rest',
      block = encString a.sigName ++ encString (encString r ++ encString s ++ rest') ++ rest

end Spec.Exchange
