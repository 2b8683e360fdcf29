import Verif.Model.Wire
/-!
# Diffie-Hellman group exchange (RFC 4419)
-/

namespace Wolf.Gex
open Wolf Wolf.Wire

/-- `dhPrimeGroup1` (src/internal.c:5743-5761). -/
def dhPrimeGroup1 : Bytes := [
  0xFF, 0xFF, 0xFF, 0xFF, 0xFF, 0xFF, 0xFF, 0xFF, 0xC9, 0x0F, 0xDA, 0xA2, 0x21, 0x68, 0xC2, 0x34, 0xC4, 0xC6, 0x62, 0x8B, 0x80, 0xDC, 0x1C, 0xD1,
  0x29, 0x02, 0x4E, 0x08, 0x8A, 0x67, 0xCC, 0x74, 0x02, 0x0B, 0xBE, 0xA6, 0x3B, 0x13, 0x9B, 0x22, 0x51, 0x4A, 0x08, 0x79, 0x8E, 0x34, 0x04, 0xDD,
  0xEF, 0x95, 0x19, 0xB3, 0xCD, 0x3A, 0x43, 0x1B, 0x30, 0x2B, 0x0A, 0x6D, 0xF2, 0x5F, 0x14, 0x37, 0x4F, 0xE1, 0x35, 0x6D, 0x6D, 0x51, 0xC2, 0x45,
  0xE4, 0x85, 0xB5, 0x76, 0x62, 0x5E, 0x7E, 0xC6, 0xF4, 0x4C, 0x42, 0xE9, 0xA6, 0x37, 0xED, 0x6B, 0x0B, 0xFF, 0x5C, 0xB6, 0xF4, 0x06, 0xB7, 0xED,
  0xEE, 0x38, 0x6B, 0xFB, 0x5A, 0x89, 0x9F, 0xA5, 0xAE, 0x9F, 0x24, 0x11, 0x7C, 0x4B, 0x1F, 0xE6, 0x49, 0x28, 0x66, 0x51, 0xEC, 0xE6, 0x53, 0x81,
  0xFF, 0xFF, 0xFF, 0xFF, 0xFF, 0xFF, 0xFF, 0xFF]

/-- `dhPrimeGroup14` (src/internal.c:5768-5802). -/
def dhPrimeGroup14 : Bytes := [
  0xFF, 0xFF, 0xFF, 0xFF, 0xFF, 0xFF, 0xFF, 0xFF, 0xC9, 0x0F, 0xDA, 0xA2, 0x21, 0x68, 0xC2, 0x34, 0xC4, 0xC6, 0x62, 0x8B, 0x80, 0xDC, 0x1C, 0xD1,
  0x29, 0x02, 0x4E, 0x08, 0x8A, 0x67, 0xCC, 0x74, 0x02, 0x0B, 0xBE, 0xA6, 0x3B, 0x13, 0x9B, 0x22, 0x51, 0x4A, 0x08, 0x79, 0x8E, 0x34, 0x04, 0xDD,
  0xEF, 0x95, 0x19, 0xB3, 0xCD, 0x3A, 0x43, 0x1B, 0x30, 0x2B, 0x0A, 0x6D, 0xF2, 0x5F, 0x14, 0x37, 0x4F, 0xE1, 0x35, 0x6D, 0x6D, 0x51, 0xC2, 0x45,
  0xE4, 0x85, 0xB5, 0x76, 0x62, 0x5E, 0x7E, 0xC6, 0xF4, 0x4C, 0x42, 0xE9, 0xA6, 0x37, 0xED, 0x6B, 0x0B, 0xFF, 0x5C, 0xB6, 0xF4, 0x06, 0xB7, 0xED,
  0xEE, 0x38, 0x6B, 0xFB, 0x5A, 0x89, 0x9F, 0xA5, 0xAE, 0x9F, 0x24, 0x11, 0x7C, 0x4B, 0x1F, 0xE6, 0x49, 0x28, 0x66, 0x51, 0xEC, 0xE4, 0x5B, 0x3D,
  0xC2, 0x00, 0x7C, 0xB8, 0xA1, 0x63, 0xBF, 0x05, 0x98, 0xDA, 0x48, 0x36, 0x1C, 0x55, 0xD3, 0x9A, 0x69, 0x16, 0x3F, 0xA8, 0xFD, 0x24, 0xCF, 0x5F,
  0x83, 0x65, 0x5D, 0x23, 0xDC, 0xA3, 0xAD, 0x96, 0x1C, 0x62, 0xF3, 0x56, 0x20, 0x85, 0x52, 0xBB, 0x9E, 0xD5, 0x29, 0x07, 0x70, 0x96, 0x96, 0x6D,
  0x67, 0x0C, 0x35, 0x4E, 0x4A, 0xBC, 0x98, 0x04, 0xF1, 0x74, 0x6C, 0x08, 0xCA, 0x18, 0x21, 0x7C, 0x32, 0x90, 0x5E, 0x46, 0x2E, 0x36, 0xCE, 0x3B,
  0xE3, 0x9E, 0x77, 0x2C, 0x18, 0x0E, 0x86, 0x03, 0x9B, 0x27, 0x83, 0xA2, 0xEC, 0x07, 0xA2, 0x8F, 0xB5, 0xC5, 0x5D, 0xF0, 0x6F, 0x4C, 0x52, 0xC9,
  0xDE, 0x2B, 0xCB, 0xF6, 0x95, 0x58, 0x17, 0x18, 0x39, 0x95, 0x49, 0x7C, 0xEA, 0x95, 0x6A, 0xE5, 0x15, 0xD2, 0x26, 0x18, 0x98, 0xFA, 0x05, 0x10,
  0x15, 0x72, 0x8E, 0x5A, 0x8A, 0xAC, 0xAA, 0x68, 0xFF, 0xFF, 0xFF, 0xFF, 0xFF, 0xFF, 0xFF, 0xFF]

/-- `dhPrimeGroup16` (src/internal.c:5807-5873). -/
def dhPrimeGroup16 : Bytes := [
  0xFF, 0xFF, 0xFF, 0xFF, 0xFF, 0xFF, 0xFF, 0xFF, 0xC9, 0x0F, 0xDA, 0xA2, 0x21, 0x68, 0xC2, 0x34, 0xC4, 0xC6, 0x62, 0x8B, 0x80, 0xDC, 0x1C, 0xD1,
  0x29, 0x02, 0x4E, 0x08, 0x8A, 0x67, 0xCC, 0x74, 0x02, 0x0B, 0xBE, 0xA6, 0x3B, 0x13, 0x9B, 0x22, 0x51, 0x4A, 0x08, 0x79, 0x8E, 0x34, 0x04, 0xDD,
  0xEF, 0x95, 0x19, 0xB3, 0xCD, 0x3A, 0x43, 0x1B, 0x30, 0x2B, 0x0A, 0x6D, 0xF2, 0x5F, 0x14, 0x37, 0x4F, 0xE1, 0x35, 0x6D, 0x6D, 0x51, 0xC2, 0x45,
  0xE4, 0x85, 0xB5, 0x76, 0x62, 0x5E, 0x7E, 0xC6, 0xF4, 0x4C, 0x42, 0xE9, 0xA6, 0x37, 0xED, 0x6B, 0x0B, 0xFF, 0x5C, 0xB6, 0xF4, 0x06, 0xB7, 0xED,
  0xEE, 0x38, 0x6B, 0xFB, 0x5A, 0x89, 0x9F, 0xA5, 0xAE, 0x9F, 0x24, 0x11, 0x7C, 0x4B, 0x1F, 0xE6, 0x49, 0x28, 0x66, 0x51, 0xEC, 0xE4, 0x5B, 0x3D,
  0xC2, 0x00, 0x7C, 0xB8, 0xA1, 0x63, 0xBF, 0x05, 0x98, 0xDA, 0x48, 0x36, 0x1C, 0x55, 0xD3, 0x9A, 0x69, 0x16, 0x3F, 0xA8, 0xFD, 0x24, 0xCF, 0x5F,
  0x83, 0x65, 0x5D, 0x23, 0xDC, 0xA3, 0xAD, 0x96, 0x1C, 0x62, 0xF3, 0x56, 0x20, 0x85, 0x52, 0xBB, 0x9E, 0xD5, 0x29, 0x07, 0x70, 0x96, 0x96, 0x6D,
  0x67, 0x0C, 0x35, 0x4E, 0x4A, 0xBC, 0x98, 0x04, 0xF1, 0x74, 0x6C, 0x08, 0xCA, 0x18, 0x21, 0x7C, 0x32, 0x90, 0x5E, 0x46, 0x2E, 0x36, 0xCE, 0x3B,
  0xE3, 0x9E, 0x77, 0x2C, 0x18, 0x0E, 0x86, 0x03, 0x9B, 0x27, 0x83, 0xA2, 0xEC, 0x07, 0xA2, 0x8F, 0xB5, 0xC5, 0x5D, 0xF0, 0x6F, 0x4C, 0x52, 0xC9,
  0xDE, 0x2B, 0xCB, 0xF6, 0x95, 0x58, 0x17, 0x18, 0x39, 0x95, 0x49, 0x7C, 0xEA, 0x95, 0x6A, 0xE5, 0x15, 0xD2, 0x26, 0x18, 0x98, 0xFA, 0x05, 0x10,
  0x15, 0x72, 0x8E, 0x5A, 0x8A, 0xAA, 0xC4, 0x2D, 0xAD, 0x33, 0x17, 0x0D, 0x04, 0x50, 0x7A, 0x33, 0xA8, 0x55, 0x21, 0xAB, 0xDF, 0x1C, 0xBA, 0x64,
  0xEC, 0xFB, 0x85, 0x04, 0x58, 0xDB, 0xEF, 0x0A, 0x8A, 0xEA, 0x71, 0x57, 0x5D, 0x06, 0x0C, 0x7D, 0xB3, 0x97, 0x0F, 0x85, 0xA6, 0xE1, 0xE4, 0xC7,
  0xAB, 0xF5, 0xAE, 0x8C, 0xDB, 0x09, 0x33, 0xD7, 0x1E, 0x8C, 0x94, 0xE0, 0x4A, 0x25, 0x61, 0x9D, 0xCE, 0xE3, 0xD2, 0x26, 0x1A, 0xD2, 0xEE, 0x6B,
  0xF1, 0x2F, 0xFA, 0x06, 0xD9, 0x8A, 0x08, 0x64, 0xD8, 0x76, 0x02, 0x73, 0x3E, 0xC8, 0x6A, 0x64, 0x52, 0x1F, 0x2B, 0x18, 0x17, 0x7B, 0x20, 0x0C,
  0xBB, 0xE1, 0x17, 0x57, 0x7A, 0x61, 0x5D, 0x6C, 0x77, 0x09, 0x88, 0xC0, 0xBA, 0xD9, 0x46, 0xE2, 0x08, 0xE2, 0x4F, 0xA0, 0x74, 0xE5, 0xAB, 0x31,
  0x43, 0xDB, 0x5B, 0xFC, 0xE0, 0xFD, 0x10, 0x8E, 0x4B, 0x82, 0xD1, 0x20, 0xA9, 0x21, 0x08, 0x01, 0x1A, 0x72, 0x3C, 0x12, 0xA7, 0x87, 0xE6, 0xD7,
  0x88, 0x71, 0x9A, 0x10, 0xBD, 0xBA, 0x5B, 0x26, 0x99, 0xC3, 0x27, 0x18, 0x6A, 0xF4, 0xE2, 0x3C, 0x1A, 0x94, 0x68, 0x34, 0xB6, 0x15, 0x0B, 0xDA,
  0x25, 0x83, 0xE9, 0xCA, 0x2A, 0xD4, 0x4C, 0xE8, 0xDB, 0xBB, 0xC2, 0xDB, 0x04, 0xDE, 0x8E, 0xF9, 0x2E, 0x8E, 0xFC, 0x14, 0x1F, 0xBE, 0xCA, 0xA6,
  0x28, 0x7C, 0x59, 0x47, 0x4E, 0x6B, 0xC0, 0x5D, 0x99, 0xB2, 0x96, 0x4F, 0xA0, 0x90, 0xC3, 0xA2, 0x23, 0x3B, 0xA1, 0x86, 0x51, 0x5B, 0xE7, 0xED,
  0x1F, 0x61, 0x29, 0x70, 0xCE, 0xE2, 0xD7, 0xAF, 0xB8, 0x1B, 0xDD, 0x76, 0x21, 0x70, 0x48, 0x1C, 0xD0, 0x06, 0x91, 0x27, 0xD5, 0xB0, 0x5A, 0xA9,
  0x93, 0xB4, 0xEA, 0x98, 0x8D, 0x8F, 0xDD, 0xC1, 0x86, 0xFF, 0xB7, 0xDC, 0x90, 0xA6, 0xC0, 0x8F, 0x4D, 0xF4, 0x35, 0xC9, 0x34, 0x06, 0x31, 0x99,
  0xFF, 0xFF, 0xFF, 0xFF, 0xFF, 0xFF, 0xFF, 0xFF]

/-- `dhGenerator` (src/internal.c:5738). -/
def dhGenerator : Bytes := [2]

/-- An entry of `candidates` (src/internal.c:13700-13717). -/
structure Cand where
  bits : Nat
  group : Bytes

/-- Build options that matter here: `WOLFSSH_NO_DH_GROUP1_SHA1`, `WOLFSSH_NO_DH_GROUP16_SHA512`,
`MAX_KEX_KEY_SZ`, `KEX_F_SIZE` (wolfssh/internal.h:634-686). -/
structure Build where
  group1 : Bool
  group16 : Bool
  keyBytes : Nat
  fBytes : Nat

/-- `candidates` (src/internal.c:13700-13717). -/
def candidates (o : Build) : List Cand :=
  (if o.group1 then [⟨1024, dhPrimeGroup1⟩] else []) ++ [⟨2048, dhPrimeGroup14⟩] ++
  (if o.group16 then [⟨4096, dhPrimeGroup16⟩] else [])

/-- `WOLFSSH_DH_GEX_MIN_BITS` (wolfssh/internal.h:629-631). -/
def GEX_MIN_BITS : Nat := 2048

/-- The scan (src/internal.c:13739-13748). -/
def scan (minBits preferredBits maxBits : Nat) : Option Cand → List Cand → Option Cand
  | best, [] => best
  | best, c :: cs =>
    if c.bits < minBits ∨ c.bits > maxBits then scan minBits preferredBits maxBits best cs
    else if c.bits ≥ preferredBits then some c
    else scan minBits preferredBits maxBits (some c) cs

/-- The floor of `SelectKexDhGexGroup` and `DoKexDhGexGroup` (src/internal.c:13727-13728,
7979-7982). -/
def floorBits (minBits : Nat) : Nat := if minBits < GEX_MIN_BITS then GEX_MIN_BITS else minBits

/-- The caps of `SelectKexDhGexGroup` (src/internal.c:13732-13735). -/
def capBits (o : Build) (maxBits : Nat) : Nat :=
  let m := if maxBits > o.keyBytes * 8 then o.keyBytes * 8 else maxBits
  if m > (o.fBytes - 1) * 8 then (o.fBytes - 1) * 8 else m

/-- `SelectKexDhGexGroup` (src/internal.c:13695-13763). -/
def selectGroup (o : Build) (minBits preferredBits maxBits : Nat) : Except Err Bytes :=
  match scan (floorBits minBits) preferredBits (capBits o maxBits) none (candidates o) with
  | none => .error .dhSize
  | some c => .ok c.group

/-- `handshake->dhGexMinSz`, `dhGexPreferredSz`, `dhGexMaxSz`, `primeGroup`, `generator`. -/
structure Gex where
  min : Nat
  preferred : Nat
  max : Nat
  prime : Option Bytes
  generator : Option Bytes
  deriving DecidableEq

/-- The pad flag of an unsigned number about to go out as an mpint
(src/internal.c:16331-16335, 7328-7335). -/
def signPad (n : Bytes) : Bytes := if (n.getD 0 0 &&& 0x80) ≠ 0 then [0] else []

/-- Length, pad, number (src/internal.c:16345-16366). -/
def padded (n : Bytes) : Bytes := c32toa (n.length + (signPad n).length) ++ signPad n ++ n

/-- `SendKexDhGexRequest` (src/internal.c:16209-16278) up to the packet layer: the new state and the
payload after the message number. -/
def gexRequest (x : Gex) : Except Err (Gex × Bytes) :=
  let min := floorBits x.min
  if x.max < min then .error .dhSize
  else
    let p := if x.preferred < min then min else x.preferred
    let p := if p > x.max then x.max else p
    .ok ({ x with min := min, preferred := p }, c32toa min ++ c32toa p ++ c32toa x.max)

/-- `DoKexDhGexRequest` (src/internal.c:7768-7806) with `SendKexDhGexGroup`
(src/internal.c:16281-16380), up to the packet layer: the state and the payload of the answer after
the message number. `alloc` is the memory for the saved prime. The outer `none` is undefined
behaviour. What is left in the state after an error is not kept: the session ends. -/
def doGexRequest (o : Build) (alloc : Bool) (x : Gex) (buf : Bytes) (len idx : Nat) : Option (Except Err (Gex × Bytes)) :=
  match getUint32 buf len idx with
  | .ub => none
  | .err e _ => some (.error e)
  | .ok mn i =>
    match getUint32 buf len i with
    | .ub => none
    | .err e _ => some (.error e)
    | .ok pr i =>
      match getUint32 buf len i with
      | .ub => none
      | .err e _ => some (.error e)
      | .ok mx _ =>
        match selectGroup o mn pr mx with
        | .error e => some (.error e)
        | .ok p =>
          if alloc then some (.ok ({ x with min := mn, preferred := pr, max := mx, prime := some p }, padded p ++ padded dhGenerator))
          else some (.error .memory)

/-- `GetDHPrimeGroup` for `ID_DH_GEX_SHA256` (src/internal.c:13810-13838). -/
def gexGroup (o : Build) (x : Gex) : Except Err (Bytes × Bytes) :=
  match x.prime with
  | some p => .ok (p, x.generator.getD dhGenerator)
  | none =>
    match selectGroup o x.min x.preferred x.max with
    | .error e => .error e
    | .ok p => .ok (p, dhGenerator)

/-- A `word32` converted to `int`. -/
def toInt (x : Nat) : Int := if x < 2147483648 then x else (x : Int) - 4294967296

/-- Number of significant bits (`mp_count_bits`). -/
def countBits (n : Nat) : Nat := if n = 0 then 0 else n.log2 + 1

/-- The number of a big-endian byte string (`mp_read_unsigned_bin`). -/
def readBin (b : Bytes) : Nat := b.foldl (fun n x => n * 256 + x.toNat) 0

/-- `maxBytes` (src/internal.c:7843). -/
def maxBytes (maxBits : Nat) : Nat := maxBits / 8 + (if maxBits % 8 ≠ 0 then 1 else 0)

/-- `adjPrimeGroupSz`, `adjGeneratorSz` (src/internal.c:7844-7846). -/
def adjSize (n : Bytes) : Nat := n.length - (if n.getD 0 0 = 0 then 1 else 0)

/-- `ValidateKexDhGexGroup` (src/internal.c:7818-7940). `isPrime` is the answer of
`mp_prime_is_prime_ex` (an error counts as no). The big number library does not fail otherwise. -/
def validateGroup (isPrime : Nat → Bool) (prime generator : Bytes) (minBits maxBits : Nat) : Option Err :=
  if prime.length = 0 ∨ generator.length = 0 then some .badArgument
  else
    if adjSize prime > maxBytes maxBits ∨ adjSize generator > adjSize prime then some .dhSize
    else
      let p := readBin prime
      let g := readBin generator
      if (countBits p : Int) < toInt minBits ∨ (countBits p : Int) > toInt maxBits then some .dhSize
      else if p % 2 = 0 then some .cryptoFailed
      else if ¬ g > 1 then some .cryptoFailed
      else if ¬ g < p - 1 then some .cryptoFailed
      else if isPrime p = false then some .cryptoFailed
      else if isPrime ((p - 1) / 2) = false then some .cryptoFailed
      else none

/-- `DoKexDhGexGroup` (src/internal.c:7943-8023) up to `SendKexDhInit`. `alloc` is the memory for the two
numbers; without it what was saved is gone. -/
def doGexGroup (o : Build) (isPrime : Nat → Bool) (alloc : Bool) (x : Gex) (buf : Bytes) (len idx : Nat) :
    Option (Except Err Unit × Gex) :=
  match getMpint buf len idx with
  | .ub => none
  | .err e _ => some (.error e, x)
  | .ok p i =>
    if p.sz > o.keyBytes + 1 then some (.error .dhSize, x)
    else
      match getMpint buf len i with
      | .ub => none
      | .err e _ => some (.error e, x)
      | .ok g _ =>
        match deref buf p, deref buf g with
        | some p, some g =>
          match validateGroup isPrime p g (floorBits x.min) x.max with
          | some e => some (.error e, x)
          | none =>
            if alloc then some (.ok (), { x with prime := some p, generator := some g })
            else some (.error .memory, { x with prime := none })
        | _, _ => none

/-- What either side feeds to the exchange hash for a group exchange (client
src/internal.c:7300-7367, server 14446-14509, where the numbers go through `CreateMpint`). -/
def hashedClient (x : Gex) (p g : Bytes) : Bytes :=
  c32toa x.min ++ c32toa x.preferred ++ c32toa x.max ++ padded p ++ padded g

/-- See `hashedClient`. -/
def hashedServer (x : Gex) (p g : Bytes) : Bytes :=
  c32toa x.min ++ c32toa x.preferred ++ c32toa x.max ++ mpintOnWire (createMpint p 0) ++ mpintOnWire (createMpint g 0)

end Wolf.Gex
