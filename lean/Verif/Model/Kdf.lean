import Verif.Model.Packet
/-!
# Deriving the keys (src/internal.c:3117-3345)

The build without the FIPS key derivation. A hash is a function of everything that was fed to it;
`none` is an error of the library at any point of that computation.
-/

namespace Wolf.Kdf
open Wolf Wolf.Wire Wolf.Packet

/-- A hash algorithm of wolfCrypt (`wc_HashInit` .. `wc_HashFinal`, `wc_HashGetDigestSize`). Not part
of the repository. `len` is the contract of `wc_HashFinal`. -/
structure HashAlg where
  digestSz : Nat
  run : Bytes → Option Bytes
  len : ∀ x d, run x = some d → d.length = digestSz

/-- `kSzFlat`, the pad and `k`, as hashed (src/internal.c:3177-3178, 3184-3188). -/
def secretBytes (k : Bytes) (doKeyPad : Bool) : Bytes :=
  let kPad := if doKeyPad = true ∧ (k.getD 0 0 &&& 0x80) ≠ 0 then 1 else 0
  c32toa (add32 k.length kPad) ++ List.replicate kPad 0 ++ k

/-- The loop over the full blocks after the first (src/internal.c:3214-3233), `n` of them to go;
`pre` is what every block starts with. The outer `none` is a write or read outside `key`. -/
def blockLoop (H : HashAlg) (pre : Bytes) : Nat → Nat → Bytes → Option (Option Err × Nat × Bytes)
  | 0, running, key => some (none, running, key)
  | n + 1, running, key =>
    match Buffer.read key 0 running with
    | none => none
    | some sofar =>
      match H.run (pre ++ sofar) with
      | none => some (some .cryptoFailed, running, key)
      | some d =>
        match Buffer.write key running d with
        | none => none
        | some key => blockLoop H pre n (running + H.digestSz) key

/-- `GenerateKey` (src/internal.c:3117-3262). `key` is the memory it writes to. -/
def generateKey (H : HashAlg) (keyId : Byte) (key : Bytes) (keySz : Nat) (k h sid : Bytes) (doKeyPad : Bool) :
    Option (Option Err × Bytes) :=
  if keySz = 0 ∨ k.length = 0 ∨ h.length = 0 ∨ sid.length = 0 then some (some .badArgument, key)
  else if H.digestSz = 0 then some (some .badArgument, key)
  else
    let pre := secretBytes k doKeyPad ++ h
    let blocks := keySz / H.digestSz
    let remainder := keySz % H.digestSz
    match H.run (pre ++ [keyId] ++ sid) with
    | none => some (some .cryptoFailed, key)
    | some d =>
      if blocks = 0 then
        if remainder > 0 then
          match Buffer.write key 0 (d.take remainder) with
          | none => none
          | some key => some (none, key)
        else some (none, key)
      else
        match Buffer.write key 0 d with
        | none => none
        | some key =>
          match blockLoop H pre (blocks - 1) H.digestSz key with
          | none => none
          | some (some e, _, key) => some (some e, key)
          | some (none, running, key) =>
            if remainder > 0 then
              match Buffer.read key 0 running with
              | none => none
              | some sofar =>
                match H.run (pre ++ sofar) with
                | none => some (some .cryptoFailed, key)
                | some d =>
                  match Buffer.write key running (d.take remainder) with
                  | none => none
                  | some key => some (none, key)
            else some (none, key)

/-- `Keys` (wolfssh/internal.h:849-856): three arrays and how much of each is in use. -/
structure Keys where
  iv : Bytes
  ivSz : Nat
  encKey : Bytes
  encKeySz : Nat
  macKey : Bytes
  macKeySz : Nat
  deriving DecidableEq, Repr

/-- The sizes of the arrays (`AES_BLOCK_SIZE`, `AES_256_KEY_SIZE`, `MAX_HMAC_SZ` with SHA-512). -/
def Keys.WF (k : Keys) : Prop := k.iv.length = 16 ∧ k.encKey.length = 32 ∧ k.macKey.length = 64

/-- The sizes `SetLocalAlgoIds`/`SetPeerAlgoIds` store (src/internal.c:5210-5255). -/
def Keys.setSizes (k : Keys) (encId : Enc) (macId : Mac) : Keys :=
  let z := keySizes encId (aeadModeForId encId) macId
  { k with ivSz := z.1, encKeySz := z.2.1, macKeySz := z.2.2 }

/-- One derivation of `GenerateKeys`: nothing for a zero size (src/internal.c:3284-3288 and the five
that follow). -/
def deriveInto (H : HashAlg) (letter : Byte) (key : Bytes) (keySz : Nat) (k h sid : Bytes) (doKeyPad : Bool) :
    Option (Option Err × Bytes) :=
  if keySz > 0 then generateKey H letter key keySz k h sid doKeyPad else some (none, key)

/-- `GenerateKeys` (src/internal.c:3266-3345): the keys for what we send and for what the peer sends. The first
failure ends it. -/
def generateKeys (H : HashAlg) (isServer : Bool) (keys peerKeys : Keys) (k h sid : Bytes) (doKeyPad : Bool) :
    Option (Option Err × Keys × Keys) :=
  let cK := if isServer then peerKeys else keys
  let sK := if isServer then keys else peerKeys
  let back := fun (e : Option Err) (cK sK : Keys) =>
    some (if isServer then (e, sK, cK) else (e, cK, sK))
  match deriveInto H 65 cK.iv cK.ivSz k h sid doKeyPad with
  | none => none
  | some (some e, m) => back (some e) { cK with iv := m } sK
  | some (none, m) =>
    let cK := { cK with iv := m }
    match deriveInto H 66 sK.iv sK.ivSz k h sid doKeyPad with
    | none => none
    | some (some e, m) => back (some e) cK { sK with iv := m }
    | some (none, m) =>
      let sK := { sK with iv := m }
      match deriveInto H 67 cK.encKey cK.encKeySz k h sid doKeyPad with
      | none => none
      | some (some e, m) => back (some e) { cK with encKey := m } sK
      | some (none, m) =>
        let cK := { cK with encKey := m }
        match deriveInto H 68 sK.encKey sK.encKeySz k h sid doKeyPad with
        | none => none
        | some (some e, m) => back (some e) cK { sK with encKey := m }
        | some (none, m) =>
          let sK := { sK with encKey := m }
          match deriveInto H 69 cK.macKey cK.macKeySz k h sid doKeyPad with
          | none => none
          | some (some e, m) => back (some e) { cK with macKey := m } sK
          | some (none, m) =>
            let cK := { cK with macKey := m }
            match deriveInto H 70 sK.macKey sK.macKeySz k h sid doKeyPad with
            | none => none
            | some (e, m) => back e cK { sK with macKey := m }

end Wolf.Kdf
