import Verif.Model.IdentKey
/-!
# Telling the type of a certificate

`IdentifyCertKey`, `CertTypeForId` and `IdentifyCert` (src/internal.c:2252-2433). What wolfCrypt answers is an input; the type of the
key is told by `IdentifyAsn1Key` (Verif/Model/IdentKey.lean).
-/

namespace Wolf.IdentCert
open Wolf.IdentKey (Id)

/-- `WOLFSSH_SMALL_STACK`; the types that have an algorithm with certificates in the build; the two allocations; and the answers of
`wc_ParseCert`, of `wc_GetPubKeyDerFromCert` without a buffer (the size, with `LENGTH_ONLY_E`) and with one. `key` is what
`IdentifyAsn1Key` answers to. -/
structure Env where
  small : Bool
  x509 : Id → Bool
  allocCert : Bool
  allocKey : Bool
  parse : Bool
  len : Option Nat
  get : Bool
  key : IdentKey.Env

/-- The decoder of the certificate is allocated, initialised, freed, released; the buffer for the key is allocated, written to (as
many bytes as it is said to have), freed. -/
inductive Ev where
  | alloc | init | free | release | keyAlloc (n : Nat) | keyFill (n : Nat) | keyFree
  deriving DecidableEq, Repr

/-- What is returned. -/
inductive Ret where
  | plain (i : Id) | cert (i : Id) | memory | parse | algo | key (r : IdentKey.Ret)
  deriving DecidableEq, Repr

/-- The call of `IdentifyAsn1Key` as it is made here: for a public key that is not wanted. -/
def asked (e : Env) : IdentKey.Env := { e.key with isPrivate := false, wanted := false }

/-- The type of the key, or the error (src/internal.c:2303-2305). -/
def told (e : Env) : Ret :=
  match (IdentKey.identify (asked e)).1 with
  | .key i => .plain i
  | r => .key r

/-- `IdentifyCertKey` (src/internal.c:2252-2317). -/
def certKey (e : Env) : Ret × List Ev :=
  if e.small = true ∧ e.allocCert = false then (.memory, [])
  else
    let pre := if e.small then [.alloc, .init] else [.init]
    let post := if e.small then [.free, .release] else [.free]
    if e.parse = false then (.parse, pre ++ post)
    else match e.len with
    | none => (.parse, pre ++ post)
    | some n =>
      if e.allocKey = false then (.memory, pre ++ post)
      else if e.get = false then (.parse, pre ++ ([.keyAlloc n, .keyFree] ++ post))
      else (told e, pre ++ ([.keyAlloc n, .keyFill n, .keyFree] ++ post))

/-- `CertTypeForId` (src/internal.c:2367-2409), `none`: the type itself. -/
def certType (e : Env) : Id → Option Id
  | .ed25519 => none
  | i => if e.x509 i then some i else none

/-- `IdentifyCert` (src/internal.c:2415-2433). -/
def identifyCert (e : Env) : Ret × List Ev :=
  match certKey e with
  | (.plain i, tr) => match certType e i with
    | none => (.algo, tr)
    | some i => (.cert i, tr)
  | r => r

end Wolf.IdentCert
