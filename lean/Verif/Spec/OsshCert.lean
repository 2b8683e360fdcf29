import Verif.Spec.Wire
/-!
# OpenSSH certificates: the format (PROTOCOL.certkeys) and what may be made of one

Independent of the model: a certificate as a value, its encoding, the encoding of its options, and
the readings of a certification authority's key and signature.
-/

namespace Spec.OsshCert
open Spec.Wire

/-- The families of certified keys. -/
inductive Alg where
  | rsa | ecdsa256 | ecdsa384 | ecdsa521 | ed25519
  deriving DecidableEq, Repr

/-- Bytes of an ASCII literal. -/
def ascii (s : String) : List UInt8 := s.toList.map (fun c => UInt8.ofNat c.toNat)

/-- The name of a plain key of the family. -/
def keyName : Alg → List UInt8
  | .rsa => ascii "ssh-rsa"
  | .ecdsa256 => ascii "ecdsa-sha2-nistp256"
  | .ecdsa384 => ascii "ecdsa-sha2-nistp384"
  | .ecdsa521 => ascii "ecdsa-sha2-nistp521"
  | .ed25519 => ascii "ssh-ed25519"

/-- The names a certificate of the family may carry. For RSA the signature-algorithm names of
RFC 8332 are taken as well. -/
def certNames : Alg → List (List UInt8)
  | .rsa => [ascii "ssh-rsa-cert-v01@openssh.com", ascii "rsa-sha2-256-cert-v01@openssh.com",
      ascii "rsa-sha2-512-cert-v01@openssh.com"]
  | .ecdsa256 => [ascii "ecdsa-sha2-nistp256-cert-v01@openssh.com"]
  | .ecdsa384 => [ascii "ecdsa-sha2-nistp384-cert-v01@openssh.com"]
  | .ecdsa521 => [ascii "ecdsa-sha2-nistp521-cert-v01@openssh.com"]
  | .ed25519 => [ascii "ssh-ed25519-cert-v01@openssh.com"]

/-- How many strings make up a key of the family: `e, n`; `curve, Q`; `pk`. -/
def keyParts : Alg → Nat
  | .rsa => 2
  | .ed25519 => 1
  | _ => 2

/-- A non-negative mpint's contents. -/
def NonNegative (b : List UInt8) : Prop := ∀ x rest, b = x :: rest → x.toNat < 128

/-- A certificate. -/
structure Cert where
  typeName : List UInt8
  nonce : List UInt8
  userKey : List (List UInt8)
  serial : Nat
  certType : Nat
  keyId : List UInt8
  principals : List UInt8
  validAfter : Nat
  validBefore : Nat
  critOpts : List UInt8
  extensions : List UInt8
  reserved : List UInt8
  caKey : List UInt8
  signature : List UInt8

/-- uint64, most significant byte first. -/
def encUint64 (n : Nat) : List UInt8 := encUint32 (n / 2 ^ 32) ++ encUint32 (n % 2 ^ 32)

/-- A run of strings. -/
def encStrings (l : List (List UInt8)) : List UInt8 := (l.map encString).flatten

/-- Everything the authority signs: all fields but the signature. -/
def body (c : Cert) : List UInt8 :=
  encString c.typeName ++ encString c.nonce ++ encStrings c.userKey ++ encUint64 c.serial ++
  encUint32 c.certType ++ encString c.keyId ++ encString c.principals ++ encUint64 c.validAfter ++
  encUint64 c.validBefore ++ encString c.critOpts ++ encString c.extensions ++
  encString c.reserved ++ encString c.caKey

/-- The certificate blob. -/
def encode (c : Cert) : List UInt8 := body c ++ encString c.signature

/-- The fields are in range and of the right shape for a certificate of family `alg`. -/
structure WellFormed (alg : Alg) (c : Cert) : Prop where
  name : c.typeName ∈ certNames alg
  parts : c.userKey.length = keyParts alg
  rsa : alg = .rsa → ∀ k ∈ c.userKey, NonNegative k
  serial : c.serial < 2 ^ 64
  certType : c.certType < 2 ^ 32
  validAfter : c.validAfter < 2 ^ 64
  validBefore : c.validBefore < 2 ^ 64
  /-- the authority's key starts with the name of its type -/
  ca : ∃ name rest, c.caKey = encString name ++ rest ∧ name.length < 2 ^ 32

/-- The plain public key a certificate certifies, in the usual encoding. -/
def plainKey (alg : Alg) (c : Cert) : List UInt8 := encString (keyName alg) ++ encStrings c.userKey

/-! ## Critical options -/

/-- The critical options the library understands. -/
inductive Option1 where
  | forceCommand (cmd : List UInt8)
  | sourceAddress (list : List UInt8)

def optName : Option1 → List UInt8
  | .forceCommand _ => ascii "force-command"
  | .sourceAddress _ => ascii "source-address"

def optValue : Option1 → List UInt8
  | .forceCommand v => v
  | .sourceAddress v => v

/-- An option on the wire: its name, and its data, which is one string. -/
def encOption (o : Option1) : List UInt8 := encString (optName o) ++ encString (encString (optValue o))

/-- Lexicographic order of byte strings. -/
def lexLt : List UInt8 → List UInt8 → Prop
  | _, [] => False
  | [], _ :: _ => True
  | x :: a, y :: b => x.toNat < y.toNat ∨ (x = y ∧ lexLt a b)

/-- The names ascend strictly. -/
def ascending : List Option1 → Prop
  | [] => True
  | [_] => True
  | a :: b :: rest => lexLt (optName a) (optName b) ∧ ascending (b :: rest)

/-- `bytes` is a sequence of options the library understands, with non-empty values, in strictly
ascending order of their names. -/
def Understood (bytes : List UInt8) (opts : List Option1) : Prop :=
  bytes = (opts.map encOption).flatten ∧ ascending opts ∧ (∀ o ∈ opts, optValue o ≠ [])

/-- A list of extensions: any pairs of strings. -/
def Pairs (bytes : List UInt8) : Prop :=
  ∃ l : List (List UInt8 × List UInt8), bytes = (l.map (fun p => encString p.1 ++ encString p.2)).flatten

/-- The command a list of options forces. -/
def forced (opts : List Option1) : Option (List UInt8) :=
  opts.findSome? (fun | .forceCommand v => some v | _ => none)

/-- The source addresses a list of options restricts the peer to. -/
def sources (opts : List Option1) : Option (List UInt8) :=
  opts.findSome? (fun | .sourceAddress v => some v | _ => none)

/-! ## The authority's key and signature -/

inductive Hash where
  | sha256 | sha384 | sha512
  deriving DecidableEq, Repr

/-- A signature check as it is put to the signature scheme. -/
inductive Check where
  | rsa (h : Hash) (e n sig : List UInt8)
  | ecdsa (h : Hash) (q r s : List UInt8)
  | ed25519 (pub sig : List UInt8)
  deriving DecidableEq, Repr

/-- `k` is a key of an authority, `sig` a signature, and `chk` is the check they stand for: the
scheme, the hash and the curve are those of the key's type, the numbers are those of the key and
the signature. Bytes following the fields of the key or of the signature are not looked at, nor is
the name in an ECDSA or Ed25519 signature. -/
inductive Reads : (k sig : List UInt8) → Check → Prop
  | rsa256 (e n s : List UInt8) (tk ts : List UInt8) (he : NonNegative e) (hn : NonNegative n) :
      Reads (encString (keyName .rsa) ++ encString e ++ encString n ++ tk)
        (encString (ascii "rsa-sha2-256") ++ encString s ++ ts) (.rsa .sha256 e n s)
  | rsa512 (e n s : List UInt8) (tk ts : List UInt8) (he : NonNegative e) (hn : NonNegative n) :
      Reads (encString (keyName .rsa) ++ encString e ++ encString n ++ tk)
        (encString (ascii "rsa-sha2-512") ++ encString s ++ ts) (.rsa .sha512 e n s)
  | ecdsa256 (q r s name tk ts tb : List UInt8) (hr : NonNegative r) (hs : NonNegative s) :
      Reads (encString (keyName .ecdsa256) ++ encString (ascii "nistp256") ++ encString q ++ tk)
        (encString name ++ encString (encString r ++ encString s ++ tb) ++ ts) (.ecdsa .sha256 q r s)
  | ecdsa384 (q r s name tk ts tb : List UInt8) (hr : NonNegative r) (hs : NonNegative s) :
      Reads (encString (keyName .ecdsa384) ++ encString (ascii "nistp384") ++ encString q ++ tk)
        (encString name ++ encString (encString r ++ encString s ++ tb) ++ ts) (.ecdsa .sha384 q r s)
  | ecdsa521 (q r s name tk ts tb : List UInt8) (hr : NonNegative r) (hs : NonNegative s) :
      Reads (encString (keyName .ecdsa521) ++ encString (ascii "nistp521") ++ encString q ++ tk)
        (encString name ++ encString (encString r ++ encString s ++ tb) ++ ts) (.ecdsa .sha512 q r s)
  | ed25519 (pub s name tk ts : List UInt8) :
      Reads (encString (keyName .ed25519) ++ encString pub ++ tk)
        (encString name ++ encString s ++ ts) (.ed25519 pub s)

/-- The signature algorithms a client may use with a certified key of the family. -/
def sigNames : Alg → List (List UInt8)
  | .rsa => [ascii "rsa-sha2-256", ascii "rsa-sha2-512"]
  | a => [keyName a]

/-- A certificate a server may go by: for users, signed by the authority it names over all its
other fields (`valid` is the judgement of the signature schemes), with no critical option that is
not understood, and with a well-formed list of extensions. -/
structure Acceptable (valid : Check → List UInt8 → Bool) (c : Cert) (opts : List Option1) : Prop where
  user : c.certType = 1
  signed : ∃ chk, Reads c.caKey c.signature chk ∧ valid chk (body c) = true
  options : Understood c.critOpts opts
  extensions : Pairs c.extensions

end Spec.OsshCert
