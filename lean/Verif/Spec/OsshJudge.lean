import Verif.Model.OsshCert
import Verif.Spec.OsshCert
/-!
# Reading the model's signature schemes and its view of a certificate in terms of the specification
-/

namespace Spec.OsshCert

/-- The hashes, name by name. -/
def ofHash : Hash → Wolf.OsshCert.Hash
  | .sha256 => .sha256
  | .sha384 => .sha384
  | .sha512 => .sha512

/-- A check over `m`, put to the signature schemes. -/
def judge (K : Wolf.OsshCert.Crypto) (chk : Check) (m : List UInt8) : Bool :=
  match chk with
  | .rsa h e n s => K.rsa (ofHash h) e n s m
  | .ecdsa h q r s => K.ecdsa (ofHash h) q r s m
  | .ed25519 p s => K.ed25519 p s m

/-- The application is shown the certificate `c` of family `alg` with the critical options `opts`:
the plain key it certifies, its authority, its principals, its validity, its restrictions. -/
def shows (alg : Alg) (c : Cert) (opts : List Option1) (keyType : List UInt8)
    (sh : Wolf.OsshCert.Shown) : Prop :=
  sh.keyType = keyType ∧ sh.key = plainKey alg c ∧ sh.caKey = c.caKey ∧ sh.principals = c.principals ∧
  sh.validAfter = c.validAfter ∧ sh.validBefore = c.validBefore ∧
  sh.restrictions.forceCommand = forced opts ∧ sh.restrictions.sourceAddress = sources opts

/-- The parser's record `c` of the certificate `s` in `blob`: every pointer designates the bytes of
its field, every number is that of its field, and the signed part is all but the signature. -/
structure Parsed (blob : List UInt8) (c : Wolf.OsshCert.Cert) (s : Cert) : Prop where
  signed : blob.take c.signedLen = body s
  nonce : Wolf.Wire.deref blob c.nonce = some s.nonce
  userKey : (blob.drop c.userKeyOff).take c.userKeySz = encStrings s.userKey
  serial : c.serial = s.serial
  certType : c.certType = s.certType
  keyId : Wolf.Wire.deref blob c.keyId = some s.keyId
  principals : Wolf.Wire.deref blob c.principals = some s.principals
  validAfter : c.validAfter = s.validAfter
  validBefore : c.validBefore = s.validBefore
  critOpts : Wolf.Wire.deref blob c.critOpts = some s.critOpts
  extensions : Wolf.Wire.deref blob c.extensions = some s.extensions
  caKey : Wolf.Wire.deref blob c.caKey = some s.caKey
  signature : Wolf.Wire.deref blob c.signature = some s.signature

end Spec.OsshCert
