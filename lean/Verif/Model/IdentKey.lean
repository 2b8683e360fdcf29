import Verif.Model.Basic
/-!
# Telling the type of a key in ASN.1

`IdentifyAsn1Key` (src/internal.c:1914-2169) with `wolfSSH_KEY_clean` (src/internal.c:1832-1891). What wolfCrypt answers to each
call is an input. The objects of wolfCrypt are all in one union: which of them is initialised and freed is recorded.
-/

namespace Wolf.IdentKey

/-- The objects in the union `ks` of `WS_KeySignature`. -/
inductive Kind where
  | rsa | ecc | mldsa | ed
  deriving DecidableEq, Repr

/-- The types of keys, `ID_SSH_RSA` to `ID_ED25519`. -/
inductive Id where
  | rsa | p256 | p384 | p521 | ml44 | ml65 | ml87 | ed25519
  deriving DecidableEq, Repr

/-- What `wc_ecc_get_curve_id` answers. -/
inductive Curve where
  | secp256r1 | secp384r1 | secp521r1 | other
  deriving DecidableEq, Repr

/-- The levels of ML-DSA. -/
inductive Lvl where
  | l44 | l65 | l87
  deriving DecidableEq, Repr

/-- The build (`WOLFSSH_NO_RSA`, `_ECDSA`, `_MLDSA`, `_MLDSA44` and so on, `_ED25519`, and `HAVE_ED25519_MAKE_KEY`), the call, and
the answers of wolfCrypt. A decoder of RSA or ECC is told whether it is that of private keys. `mlPriv` and `edPriv`: decoded, and
whether with a public key. `params`: the level told, `none` if there is none or another. `again` and `raw`: the object for a level
can be initialised again, and the input is a raw key of that level. -/
structure Env where
  rsa : Bool
  ecdsa : Bool
  mldsa : Bool
  level : Lvl → Bool
  ed : Bool
  edMake : Bool
  isPrivate : Bool
  wanted : Bool
  alloc : Bool
  rsaInit : Bool
  rsaDec : Bool → Bool
  eccInit : Bool
  eccDec : Bool → Option Curve
  eccPrivOnly : Bool
  eccMakePub : Bool
  mlInit : Bool
  mlPriv : Option Bool
  mlPub : Bool
  params : Option Lvl
  again : Lvl → Bool
  raw : Lvl → Bool
  edInit : Bool
  edPriv : Option Bool
  edPub : Bool

/-- The structure is allocated or freed; an object in its union is initialised or freed. -/
inductive Ev where
  | alloc | release | init (k : Kind) | free (k : Kind)
  deriving DecidableEq, Repr

/-- `key->keyId` (`none`: `ID_UNKNOWN`), `noPubKeyRet`, and what was done. -/
structure St where
  id : Option Id
  noPub : Bool
  tr : List Ev
  deriving DecidableEq, Repr

/-- The block for RSA (src/internal.c:1942-1966). -/
def tryRsa (e : Env) (s : St) : St :=
  if e.rsa = true ∧ s.id = none then
    if e.rsaInit then
      if e.rsaDec e.isPrivate then { s with id := some .rsa, tr := s.tr ++ [.init .rsa] }
      else { s with tr := s.tr ++ [.init .rsa, .free .rsa] }
    else s
  else s

/-- The type for a curve (src/internal.c:1987-2000). -/
def curveId : Curve → Option Id
  | .secp256r1 => some .p256
  | .secp384r1 => some .p384
  | .secp521r1 => some .p521
  | .other => none

/-- The block for ECDSA (src/internal.c:1967-2027). -/
def tryEcc (e : Env) (s : St) : St :=
  if e.ecdsa = true ∧ s.id = none then
    if e.eccInit then
      match (e.eccDec e.isPrivate).bind curveId with
      | none => { s with tr := s.tr ++ [.init .ecc, .free .ecc] }
      | some i =>
        if e.isPrivate = true ∧ e.eccPrivOnly = true ∧ e.eccMakePub = false then
          { s with noPub := true, tr := s.tr ++ [.init .ecc, .free .ecc] }
        else { s with id := some i, tr := s.tr ++ [.init .ecc] }
    else s
  else s

/-- The type for a level (src/internal.c:2098-2100). -/
def levelId : Lvl → Id
  | .l44 => .ml44
  | .l65 => .ml65
  | .l87 => .ml87

/-- The levels that are tried (src/internal.c:2059-2075). -/
def levels (e : Env) : List Lvl := [.l44, .l65, .l87].filter e.level

/-- The loop over them (src/internal.c:2076-2091): the type, `mlDsaInit`, and what is done. -/
def probe (e : Env) : List Lvl → Option Id × Bool × List Ev
  | [] => (none, true, [])
  | l :: ls =>
    if e.again l = false then (none, false, [.free .mldsa])
    else if e.raw l then (some (levelId l), true, [.free .mldsa, .init .mldsa])
    else ((probe e ls).1, (probe e ls).2.1, .free .mldsa :: .init .mldsa :: (probe e ls).2.2)

/-- A key that was decoded: its level (src/internal.c:2095-2103). -/
def told (e : Env) (s : St) : St :=
  match e.params with
  | some l => { s with id := some (levelId l), tr := s.tr ++ [.init .mldsa] }
  | none => { s with tr := s.tr ++ [.init .mldsa, .free .mldsa] }

/-- The block for ML-DSA (src/internal.c:2028-2105). -/
def tryMl (e : Env) (s : St) : St :=
  if e.mldsa = true ∧ s.id = none ∧ s.noPub = false then
    if e.mlInit then
      if e.isPrivate then
        match e.mlPriv with
        | none => { s with tr := s.tr ++ [.init .mldsa, .free .mldsa] }
        | some false => { s with noPub := true, tr := s.tr ++ [.init .mldsa, .free .mldsa] }
        | some true => told e s
      else if e.mlPub then told e s
      else
        { s with
          id := (probe e (levels e)).1
          tr := s.tr ++ (.init .mldsa :: (probe e (levels e)).2.2 ++
            if (probe e (levels e)).2.1 = true ∧ (probe e (levels e)).1 = none then [.free .mldsa] else []) }
    else s
  else s

/-- The block for Ed25519 (src/internal.c:2106-2148). -/
def tryEd (e : Env) (s : St) : St :=
  if e.ed = true ∧ s.id = none ∧ s.noPub = false then
    if e.edInit then
      if e.isPrivate then
        match e.edPriv with
        | none => { s with tr := s.tr ++ [.init .ed, .free .ed] }
        | some pub =>
          if pub = true ∨ e.edMake = true then { s with id := some .ed25519, tr := s.tr ++ [.init .ed] }
          else { s with noPub := true, tr := s.tr ++ [.init .ed, .free .ed] }
      else if e.edPub then { s with id := some .ed25519, tr := s.tr ++ [.init .ed] }
      else { s with tr := s.tr ++ [.init .ed, .free .ed] }
    else s
  else s

/-- `wolfSSH_KEY_clean` (src/internal.c:1832-1891) for the types that are found here. -/
def clean : Option Id → List Ev
  | none => []
  | some .rsa => [.free .rsa]
  | some .ed25519 => [.free .ed]
  | some .ml44 => [.free .mldsa]
  | some .ml65 => [.free .mldsa]
  | some .ml87 => [.free .mldsa]
  | some .p256 => [.free .ecc]
  | some .p384 => [.free .ecc]
  | some .p521 => [.free .ecc]

/-- What is returned: the type, `WS_MEMORY_E`, `WS_CRYPTO_FAILED` or `WS_UNIMPLEMENTED_E`. -/
inductive Ret where
  | key (i : Id) | memory | crypto | unimplemented
  deriving DecidableEq, Repr

/-- All blocks, one after the other. -/
def tryAll (e : Env) : St := tryEd e (tryMl e (tryEcc e (tryRsa e ⟨none, false, [.alloc]⟩)))

/-- `IdentifyAsn1Key` (src/internal.c:1914-2169): what is returned, whether `*pkey` is the structure, and what was done. -/
def identify (e : Env) : Ret × Bool × List Ev :=
  if e.alloc = false then (.memory, false, [])
  else match (tryAll e).id with
  | none =>
    (if (tryAll e).noPub then .crypto else .unimplemented, false, (tryAll e).tr ++ clean none ++ [.release])
  | some i =>
    if e.wanted then (.key i, true, (tryAll e).tr)
    else (.key i, false, (tryAll e).tr ++ clean (some i) ++ [.release])

end Wolf.IdentKey
