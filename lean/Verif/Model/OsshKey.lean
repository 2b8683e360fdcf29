import Verif.Model.OsshCert
/-!
# Private keys in OpenSSH's format

`GetOpenSshKey` and `IdentifyOpenSshKey` (src/ossh.c:60-383, 526-741) with `wolfSSH_KEY_clean` (src/internal.c:1834-1891), in
the variant for wolfSSL after 5.7.0 (src/ossh.c:67-101). What wolfCrypt makes of the numbers, and whether its objects can be
initialised, are choices of the environment. The names are those of `NameIdMap` (src/internal.c:3430-3486).
-/

namespace Wolf.OsshKey
open Wolf Wolf.Wire
open Wolf.NameList (asc)
open Wolf.OsshCert (view)

/-- The key types of the switch (src/ossh.c:594-667). -/
inductive Kind where
  | rsa | p256 | p384 | p521 | ed25519 | ml44 | ml65 | ml87
  | ml44p256 | ml65p256 | ml87p384 | ml44ed | ml65ed | ml87ed448
  deriving DecidableEq, Repr

/-- The reader a type has (src/ossh.c:594-667). -/
inductive Fam where
  | rsa | ecc | ed25519 | mldsa | comp
  deriving DecidableEq, Repr

def fam : Kind → Fam
  | .rsa => .rsa
  | .p256 | .p384 | .p521 => .ecc
  | .ed25519 => .ed25519
  | .ml44 | .ml65 | .ml87 => .mldsa
  | _ => .comp

/-- The rows of `NameIdMap` for these types (src/internal.c:3430-3486). -/
def rows : List (Bytes × Kind) :=
  [(asc "ssh-rsa", .rsa), (asc "ecdsa-sha2-nistp256", .p256), (asc "ecdsa-sha2-nistp384", .p384),
   (asc "ecdsa-sha2-nistp521", .p521), (asc "ssh-ed25519", .ed25519), (asc "ssh-mldsa-44", .ml44),
   (asc "ssh-mldsa44-es256@wolfssl.com", .ml44p256), (asc "ssh-mldsa65-es256@wolfssl.com", .ml65p256),
   (asc "ssh-mldsa87-es384@wolfssl.com", .ml87p384), (asc "ssh-mldsa44-ed25519@openssh.com", .ml44ed),
   (asc "ssh-mldsa65-ed25519@wolfssl.com", .ml65ed), (asc "ssh-mldsa87-ed448@wolfssl.com", .ml87ed448),
   (asc "ssh-mldsa-65", .ml65), (asc "ssh-mldsa-87", .ml87)]

/-- The sizes of a composite: `mldsaPubSz`, `tradPubSz`, `tradPrivSz` (`WS_GetCompositeParams`, src/internal.c:21503-21614). -/
def compSizes : Kind → Nat × Nat × Nat
  | .ml44p256 => (1312, 65, 32)
  | .ml65p256 => (1952, 65, 32)
  | .ml87p384 => (2592, 97, 48)
  | .ml44ed => (1312, 32, 32)
  | .ml65ed => (1952, 32, 32)
  | .ml87ed448 => (2592, 57, 57)
  | _ => (0, 0, 0)

/-- `MLDSA_SEED_SZ`. -/
def seedSz : Nat := 32

/-- The choices of wolfCrypt and of the build. -/
structure Env where
  /-- the type is compiled in -/
  built : Kind → Bool := fun _ => true
  /-- the initialisation of the (first) object succeeds, setting its parameters, initialising the second -/
  init : Bool := true
  params : Bool := true
  tradInit : Bool := true
  /-- the import of the given strings succeeds -/
  imports : Kind → List Bytes → Bool
  /-- the public key `wc_MlDsaKey_MakeKeyFromSeed` makes of a seed -/
  seedPub : Kind → Bytes → Option Bytes
  /-- the public key exported after the import of a private and a public key -/
  tradPub : Kind → Bytes → Bytes → Option Bytes

inductive KErr where
  | magic | buffer | format | check | rsa | ecc | crypto | unimplemented
  deriving DecidableEq, Repr

inductive Ret (α : Type) where
  | ub
  | err (e : KErr)
  | ok (v : α)
  deriving DecidableEq, Repr

/-- Go on with what a reader of `Wire` gives; its errors become `e`. -/
def next {α β : Type} (e : KErr) (r : Res α) (f : α → Nat → Ret β) : Ret β :=
  match r with
  | .ub => .ub
  | .err _ _ => .err e
  | .ok v i => f v i

/-- The strings of a key in their order; `true` for those read by `GetMpint`
(src/ossh.c:82-95, 213-218, 247-250, 287-289, 326-328). -/
def shape : Fam → List Bool
  | .rsa => [true, true, true, true, true, true]
  | .ecc => [false, false, true]
  | .ed25519 | .mldsa | .comp => [false, false]

/-- Read them one after the other. -/
def readParts (e : KErr) (mem : Bytes) (len : Nat) : List Bool → Nat → Ret (List Bytes × Nat)
  | [], idx => .ok ([], idx)
  | m :: ms, idx =>
    next e (if m then getMpint mem len idx else getStringRef mem len idx) fun r i =>
      match deref mem r with
      | none => .ub
      | some b =>
        match readParts e mem len ms i with
        | .ok (bs, j) => .ok (b :: bs, j)
        | .err e => .err e
        | .ub => .ub

/-- What wolfCrypt is given, and whether it takes it: src/ossh.c:94-96, 220-222 (the name of the curve is not used), 251-257,
290-291 and 332-376. -/
def takes (E : Env) (k : Kind) (parts : List Bytes) : Bool :=
  match fam k, parts with
  | .rsa, _ => E.imports k parts
  | .ecc, [_, pub, priv] => E.imports k [priv, pub]
  | .ed25519, [pub, priv] => if priv.length < pub.length then false else E.imports k [priv.take (priv.length - pub.length), pub]
  | .mldsa, [pub, priv] => E.imports k [priv, pub]
  | .comp, [pub, priv] =>
    let sz := compSizes k
    decide (pub.length = sz.1 + sz.2.1) && decide (priv.length = seedSz + sz.2.2) &&
      E.seedPub k (priv.take seedSz) == some (pub.take sz.1) &&
      E.tradPub k (priv.drop seedSz) (pub.drop sz.1) == some (pub.drop sz.1)
  | _, _ => false

/-- An object of wolfCrypt inside of the `WS_KeySignature`, which was zeroed. -/
inductive Obj where
  | raw | live | freed
  deriving DecidableEq, Repr

/-- The `WS_KeySignature`: `keyId` (`none` for `ID_NONE` and whatever `wolfSSH_KEY_clean` does not know), its objects, and
whether one was freed twice. -/
structure Key where
  kind : Option Kind := none
  obj : Obj := .raw
  trad : Obj := .raw
  twice : Bool := false
  deriving DecidableEq, Repr

/-- Freeing: `raw` is zeroed memory, for which the functions of wolfCrypt do nothing. -/
def free (o : Obj) : Obj := if o = .live then .freed else o

/-- `wolfSSH_KEY_clean` (src/internal.c:1834-1891). -/
def clean (y : Key) : Key :=
  match y.kind with
  | none => y
  | some k =>
    let y' := { y with obj := free y.obj, twice := y.twice || decide (y.obj = .freed) }
    if fam k = .comp then { y' with trad := free y.trad, twice := y'.twice || decide (y.trad = .freed) } else y'

/-- The error of a reader (src/ossh.c:98, 224, 259, 292-295, 378-382). -/
def failure : Fam → KErr
  | .rsa => .rsa
  | .ecc | .ed25519 => .ecc
  | .mldsa | .comp => .format

/-- Read and import (the part that is the same for all types). -/
def readKey (E : Env) (k : Kind) (mem : Bytes) (len idx : Nat) : Ret (List Bytes × Nat) :=
  match readParts (failure (fam k)) mem len (shape (fam k)) idx with
  | .ok (ps, i) => if takes E k ps then .ok (ps, i) else .err (failure (fam k))
  | .err e => .err e
  | .ub => .ub

def ok? {α : Type} : Ret α → Bool
  | .ok _ => true
  | _ => false

/-- The reader of a type and what it leaves of the key object: `GetOpenSshKeyRsa`, `GetOpenSshKeyEcc`,
`GetOpenSshKeyEd25519`, `GetOpenSshKeyMlDsa`, `GetOpenSshKeyMlDsaComposite` with `InitCompositeKeyPair`
(src/internal.c:2220-2243) and their callers' setting of `keyId` (src/ossh.c:594-667). -/
def load (E : Env) (k : Kind) (mem : Bytes) (len idx : Nat) : Ret (List Bytes × Nat) × Key :=
  match fam k with
  | .rsa | .ecc | .ed25519 =>
    if E.init then (readKey E k mem len idx, { kind := some k, obj := .live })
    else (.err (failure (fam k)), { kind := some k })
  | .mldsa =>
    if ¬ E.init then (.err .crypto, {})
    else if ¬ E.params then (.err .crypto, { obj := .freed })
    else
      let r := readKey E k mem len idx
      (r, if ok? r then { kind := some k, obj := .live } else { obj := .freed })
  | .comp =>
    if ¬ E.init then (.err .crypto, {})
    else if ¬ E.params then (.err .crypto, { obj := .freed })
    else if ¬ E.tradInit then (.err .crypto, { obj := .freed })
    else
      let r := readKey E k mem len idx
      (r, if ok? r then { kind := some k, obj := .live, trad := .live } else { obj := .freed, trad := .freed })

/-- `NameToId` and the switch: the type, if it is one of those read here. -/
def kindOf (E : Env) (name : Bytes) : Option Kind :=
  ((rows.filter fun r => E.built r.2).find? fun r => r.1 == name).map (·.2)

/-- The padding counts from 1 (src/ossh.c:680-694). -/
def counted : Nat → Bytes → Bool
  | _, [] => true
  | n, b :: bs => (n == b.toNat) && counted (n + 1) bs

/-- "openssh-key-v1" and its NUL (src/ossh.c:529-530). -/
def magic : Bytes := asc "openssh-key-v1" ++ [0]

/-- The list of private keys: `str`, `strSz` of src/ossh.c:568-704. -/
def privateList (E : Env) (mem : Bytes) (len : Nat) : Ret (Kind × List Bytes) × Key :=
  match getUint32 mem len 0 with
  | .ub => (.ub, {})
  | .err _ _ => (.err .buffer, {})
  | .ok check1 i =>
    match getUint32 mem len i with
    | .ub => (.ub, {})
    | .err _ _ => (.err .buffer, {})
    | .ok check2 i =>
      if check1 ≠ check2 then (.err .check, {})
      else
        match getStringRef mem len i with
        | .ub => (.ub, {})
        | .err _ _ => (.err .buffer, {})
        | .ok r i =>
          match deref mem r with
          | none => (.ub, {})
          | some name =>
            match kindOf E name with
            | none => (.err .unimplemented, {})
            | some k =>
              match load E k mem len i with
              | (.ub, y) => (.ub, y)
              | (.err e, y) => (.err e, y)
              | (.ok (ps, i), y) =>
                match getSkip mem len i with
                | .ub => (.ub, y)
                | .err _ _ => (.err .buffer, y)
                | .ok _ i =>
                  if len % 8 = 0 ∧ ¬ counted 1 ((mem.take len).drop i) then (.err .format, { clean y with kind := none })
                  else (.ok (k, ps), y)

/-- `GetOpenSshKey` (src/ossh.c:526-707) on a zeroed key object. -/
def getOpenSshKey (E : Env) (mem : Bytes) (len : Nat) : Ret (Kind × List Bytes) × Key :=
  if len < magic.length then (.err .magic, {})
  else if mem.length < magic.length then (.ub, {})
  else if mem.take magic.length ≠ magic then (.err .magic, {})
  else
    let header : Ret (StrRef × Nat) :=
      next .buffer (getSkip mem len magic.length) fun _ i =>
      next .buffer (getSkip mem len i) fun _ i =>
      next .buffer (getSkip mem len i) fun _ i =>
      next .buffer (getUint32 mem len i) fun count i =>
      if count ≠ 1 then .err .format
      else
        next .buffer (getStringRef mem len i) fun _ i =>
        next .buffer (getStringRef mem len i) fun r _ =>
        if r.sz = 0 then .err .format else .ok (r, r.sz)
    match header with
    | .ub => (.ub, {})
    | .err e => (.err e, {})
    | .ok (r, sz) => privateList E (view mem r) sz

/-- `IdentifyOpenSshKey` (src/ossh.c:715-741): the key object is cleaned and freed at the end. -/
def identify (E : Env) (mem : Bytes) (len : Nat) : Ret Kind × Key :=
  let r := getOpenSshKey E mem len
  (match r.1 with
    | .ok (k, _) => .ok k
    | .err e => .err e
    | .ub => .ub, clean r.2)

end Wolf.OsshKey
