import Verif.Model.CertMan
import Verif.Spec.Wire
/-!
# Specification: chains of X.509 certificates

The message of RFC 6187, paths of trust over a history, and the profiles of the Federal PKI. Of the model only types, parameters
and events are used.
-/

namespace Spec.CertMan
open Wolf.CertMan (Lib Leaf Event VRet ORet Sheet)
open Spec.Wire (encString encUint32)

def asc (s : String) : List UInt8 := s.toUTF8.toList

/-- The certificates one after the other. -/
def encStrings (l : List (List UInt8)) : List UInt8 := (l.map encString).flatten

/-- A message of RFC 6187, section 2.1, with the certificates `cs`: a name, the number of certificates, the certificates, and the
number of OCSP responses, which is not larger. What follows is not looked at. -/
def Message (msg : List UInt8) (cs : List (List UInt8)) : Prop :=
  ∃ name ocsp rest, msg = encString name ++ (encUint32 cs.length ++ (encStrings cs ++ (encUint32 ocsp ++ rest))) ∧
    cs ≠ [] ∧ cs.length < 2 ^ 32 ∧ ocsp ≤ cs.length

/-- An authority: `isCA`, and the right to sign certificates if its use is limited and it is not self-signed. -/
def Authority (L : Lib) (c : List UInt8) : Prop :=
  ∃ i, L.inter c = some i ∧ i.isCA = true ∧ (i.selfSigned = true ∨ i.certSign ≠ some false)

/-- Not known to be revoked. -/
def NotRevoked (L : Lib) (now : Nat) (c : List UInt8) : Prop :=
  ∀ f, L.ocsp = some f → f now c = .ok ∨ f now c = .needUrl

/-- What is assumed of wolfSSL: a certificate verifies only if one of the trusted certificates has signed it and it is valid at
the time. -/
def Sound (L : Lib) (signs : List UInt8 → List UInt8 → Prop) (valid : Nat → List UInt8 → Prop) : Prop :=
  ∀ S now c, L.verify S now c = .ok → (∃ s ∈ S, signs s c) ∧ valid now c

/-- And it does so then. -/
def Complete (L : Lib) (signs : List UInt8 → List UInt8 → Prop) (valid : Nat → List UInt8 → Prop) : Prop :=
  ∀ S now c s, s ∈ S → signs s c → valid now c → L.verify S now c = .ok

/-- A certificate is trusted after a history: it was loaded by the application, or it came as an intermediate certificate in the
message of a peer, is an authority, was valid and not revoked then, and was signed by a trusted one. -/
inductive Trusted (L : Lib) (signs : List UInt8 → List UInt8 → Prop) (valid : Nat → List UInt8 → Prop) (es : List Event) :
    List UInt8 → Prop
  | root (now : Nat) (c : List UInt8) : .load now c ∈ es → Trusted L signs valid es c
  | inter (alloc : Bool) (now : Nat) (msg leaf : List UInt8) (cs : List (List UInt8)) (c s : List UInt8) :
      .peer alloc now msg ∈ es → Message msg (leaf :: cs) → c ∈ cs → Authority L c → valid now c → NotRevoked L now c →
      signs s c → Trusted L signs valid es s → Trusted L signs valid es c

/-- A path of authorities that are all valid and not revoked at one time: it begins at one of `roots`, and goes on with
certificates of `pool`. -/
inductive Path (L : Lib) (signs : List UInt8 → List UInt8 → Prop) (valid : Nat → List UInt8 → Prop) (now : Nat)
    (roots pool : List UInt8 → Prop) : List UInt8 → Prop
  | root (c : List UInt8) : roots c → Path L signs valid now roots pool c
  | inter (c s : List UInt8) : pool c → Authority L c → valid now c → NotRevoked L now c → signs s c →
      Path L signs valid now roots pool s → Path L signs valid now roots pool c

/-- A leaf conforms to a profile of the Federal PKI (worksheets 6, 10 and 16). -/
structure Conforms (c : Leaf) : Prop where
  usage : c.keyUsage = some 0x80
  country : c.country = asc "US"
  issued : c.authKeyId ≠ c.subjKeyId
  date : ∃ y f, c.notAfter = some (y, f) ∧ (f = .utc ∧ y ≤ 149 ∨ f = .general ∧ 149 < y)
  issuer : c.ca = some c.issuerHash
  path : c.pathLength = 0
  uuid : c.uuid = true
  client : c.clientAuth = true
  alg : c.alg ≠ .other
  sheet :
    (asc "2.16.840.1.101.3.2.1.3.13" ∈ [c.policy0, c.policy1] ∧ c.sshMscl = true ∧ c.fascn = true) ∨
    (asc "2.16.840.1.101.3.2.1.3.40" ∈ [c.policy0, c.policy1] ∨ asc "2.16.840.1.101.3.2.1.3.41" ∈ [c.policy0, c.policy1]) ∨
    (asc "2.16.840.1.101.3.2.1.3.45" ∈ [c.policy0, c.policy1] ∧ c.sshMscl = true)

/-- Each certificate is signed by the next, and the last one by `root`. -/
def Linked (signs : List UInt8 → List UInt8 → Prop) : List (List UInt8) → List UInt8 → Prop
  | [], _ => True
  | [c], root => signs root c
  | c :: d :: cs, root => signs d c ∧ Linked signs (d :: cs) root

end Spec.CertMan
