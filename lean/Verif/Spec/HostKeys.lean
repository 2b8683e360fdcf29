import Verif.Model.HostKeys
/-!
# What loading host keys and certificates means

A context has for each type of key the last private key and the last certificate that were loaded.
-/

namespace Spec.HostKeys
open Wolf (Byte Bytes)
open Wolf.HostKeys (Key Fmt Name Cfg Lib Call derOf keyTypeOf)

/-- The private key and the certificate of each type. -/
structure Store where
  key : Key → Option Bytes := fun _ => none
  cert : Key → Option Bytes := fun _ => none

/-- Keys of which there are X.509 algorithms. -/
def hasX509 (c : Cfg) : Key → Bool
  | .ed25519 => false
  | .composite _ => false
  | k => c.x509 k

/-- What a call gives, if it can be read: a key or a certificate, of which type. -/
def given (c : Cfg) (l : Lib) (a : Call) : Option (Key × Bytes) :=
  (derOf l a.isKey a.fmt a.inp).bind fun der =>
    if a.isKey then (keyTypeOf l a.fmt der).map fun k => (k, der)
    else (l.certKey der).bind fun k => if hasX509 c k then some (k, der) else none

/-- Loading one. -/
def Store.load (t : Store) (isKey : Bool) (k : Key) (der : Bytes) : Store :=
  if isKey then { t with key := fun j => if j = k then some der else t.key j }
  else { t with cert := fun j => if j = k then some der else t.cert j }



/-- The store after calls, with those loaded in the order in which they came first: a call is lost if it cannot be read
or would make more than sixteen. -/
def store (c : Cfg) (l : Lib) : List Call → Store × List (Bool × Key) → Store × List (Bool × Key)
  | [], r => r
  | a :: as, r =>
    match given c l a with
    | none => store c l as r
    | some (k, der) =>
      if (a.isKey, k) ∈ r.2 then store c l as (r.1.load a.isKey k der, r.2)
      else if r.2.length < 16 then store c l as (r.1.load a.isKey k der, r.2 ++ [(a.isKey, k)])
      else store c l as r

/-- The names a key or a certificate is offered under. -/
def names (c : Cfg) : Bool × Key → List Name
  | (true, .rsa) => (if c.sha512 then [.rsaSha512] else []) ++ (if c.sha256 then [.rsaSha256] else []) ++
      (if c.sha1 then [.fmt (.plain .rsa)] else [])
  | (true, k) => [.fmt (.plain k)]
  | (false, k) => [.fmt (.cert k)]

end Spec.HostKeys
