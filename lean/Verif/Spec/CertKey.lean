import Verif.Model.CertKey
import Verif.Spec.CertMan
/-!
# Specification: host keys in X.509 certificates

Of the model only the algorithms and the events are used.
-/

namespace Spec.CertKey
open Spec.Wire (encString encUint32)
open Spec.CertMan (asc)
open Wolf.CertKey (CertId Ev Kind)

/-- The names of RFC 6187, and those for ML-DSA. -/
def name : CertId → List UInt8
  | .rsa => asc "x509v3-ssh-rsa"
  | .p256 => asc "x509v3-ecdsa-sha2-nistp256"
  | .p384 => asc "x509v3-ecdsa-sha2-nistp384"
  | .p521 => asc "x509v3-ecdsa-sha2-nistp521"
  | .ml44 => asc "x509v3-ssh-mldsa-44"
  | .ml65 => asc "x509v3-ssh-mldsa-65"
  | .ml87 => asc "x509v3-ssh-mldsa-87"

/-- The key of RFC 6187, section 2.1, with one certificate and no OCSP response. -/
def keyBlob (id : CertId) (cert : List UInt8) : List UInt8 :=
  encString (name id) ++ (encUint32 1 ++ (encString cert ++ encUint32 0))

/-- The kind of key of an algorithm, with the security category of ML-DSA. -/
def kindOf : CertId → Kind
  | .rsa => .rsa
  | .p256 | .p384 | .p521 => .ecc
  | .ml44 => .mldsa 2
  | .ml65 => .mldsa 3
  | .ml87 => .mldsa 5

/-- The curve of an algorithm, by its size in bits. -/
def curveOf : CertId → Option Nat
  | .p256 => some 256
  | .p384 => some 384
  | .p521 => some 521
  | _ => none

/-- The buffers alive after a list of calls: of the key in DER, and of the key object. `none` if one is freed that is not alive, or
made while there is one. -/
def alive : List Ev → Bool × Bool → Option (Bool × Bool)
  | [], s => some s
  | .derAlloc _ :: es, (d, k) => if d then none else alive es (true, k)
  | .derFree :: es, (d, k) => if d then alive es (false, k) else none
  | .keyInit :: es, (d, k) => if k then none else alive es (d, true)
  | .keyFree :: es, (d, k) => if k then alive es (d, false) else none

/-- All that is made is freed, once and after it was made. -/
def Clean (es : List Ev) : Prop := alive es (false, false) = some (false, false)

end Spec.CertKey
