import Verif.Model.SshdKeys
import Verif.Model.OsshCert
/-!
# What wolfsshd asks of an OpenSSH certificate (apps/wolfsshd/auth.c:1483-1732)

`inet_pton` is an input. Lengths of the regions are below 2^32 - 4, so `idx + UINT32_SZ` does not wrap.
-/

namespace Wolf.Sshd
open Wolf Wolf.OsshCert

/-- The loop of `OsshCertCheckPrincipal` (auth.c:1512-1522) on what is left of the region. -/
def principalLoop (name : Bytes) : Nat → Bytes → Bool
  | 0, _ => false
  | fuel + 1, rest =>
    match rest with
    | a :: b :: c :: d :: t =>
      let entSz := Wire.ato32 a b c d
      if entSz > t.length then false
      else if entSz = name.length ∧ t.take name.length = name then true
      else principalLoop name fuel (t.drop entSz)
    | _ => false

/-- `OsshCertCheckPrincipal` (auth.c:1483-1528). -/
def osshCertCheckPrincipal (principals name : Bytes) : AuthRc :=
  if principals = [] then .failure
  else if principalLoop name principals.length principals then .success else .failure

/-- `OsshCertCheckValidity` (auth.c:1536-1551) at the time `now`. -/
def osshCertCheckValidity (sh : Shown) (now : Nat) : AuthRc :=
  if now < sh.validAfter ∨ now ≥ sh.validBefore then .failure else .success

/-- `OsshPrefixMatch` (auth.c:1555-1582); the callers pass no negative `bits`. -/
def osshPrefixMatch (a b : Bytes) (bits len : Nat) : Bool :=
  let fullBytes := bits / 8
  let remBits := bits % 8
  if bits > len * 8 then false
  else if fullBytes > 0 ∧ a.take fullBytes ≠ b.take fullBytes then false
  else if remBits ≠ 0 then
    let mask : UInt8 := UInt8.ofNat (0xFF <<< (8 - remBits))
    (a[fullBytes]?.getD 0 &&& mask) = (b[fullBytes]?.getD 0 &&& mask)
  else true

/-- `inet_pton(AF_INET, ..)` and `inet_pton(AF_INET6, ..)`: the 4 or 16 bytes of the address, `none` if the text
is no address of the family. -/
structure Net where
  pton4 : Bytes → Option Bytes
  pton6 : Bytes → Option Bytes

/-- `IN6_IS_ADDR_V4MAPPED`. -/
def v4mapped (a : Bytes) : Bool :=
  a.take 12 = [0, 0, 0, 0, 0, 0, 0, 0, 0, 0, 255, 255]

/-- The peer's address as bytes (auth.c:1602-1620). -/
def peerAddr (N : Net) (peerIp : Bytes) : Option Bytes :=
  match N.pton4 peerIp with
  | some v4 => some v4
  | none =>
    match N.pton6 peerIp with
    | some v6 => if v4mapped v6 then some (v6.drop 12) else some v6
    | none => none

/-- The digits of a prefix length (auth.c:1671-1683): `none` if the list is malformed. -/
def prefixLoop : Bytes → Nat → Option Nat
  | [], n => some n
  | c :: t, n =>
    if 48 ≤ c ∧ c ≤ 57 then
      let n := n * 10 + (c.toNat - 48)
      if n > 128 then none else prefixLoop t n
    else none

/-- The address of an entry: IPv4, else IPv6 (auth.c:1680-1690). -/
def entryAddr (N : Net) (p : Bytes) : Option Bytes :=
  match N.pton4 p with
  | some v4 => some v4
  | none => N.pton6 p

/-- One entry of the list, as a C string (auth.c:1650-1702): the address and the length of the prefix; `none` if
it is malformed. -/
def readEntry (N : Net) (ent : Bytes) : Option (Bytes × Nat) :=
  if ent = [] then none
  else if ent.head? = some 33 then none
  else
    let p := ent.takeWhile (fun c => c ≠ 47)
    let slash := ent.dropWhile (fun c => c ≠ 47)
    let pfx : Option (Option Nat) :=
      match slash with
      | [] => some none
      | _ :: pp => if pp = [] then none else (prefixLoop pp 0).map some
    match pfx with
    | none => none
    | some pfx =>
      match entryAddr N p with
      | none => none
      | some a =>
        match pfx with
        | none => some (a, a.length * 8)
        | some n => if n > a.length * 8 then none else some (a, n)

/-- `WOLFSSHD_CIDR_ENTRY_SZ` (auth.c:134). -/
def CIDR_ENTRY_SZ : Nat := 80

/-- The loop of `OsshSourceAddrMatch` (auth.c:1626-1714) on what is left of the list. -/
def sourceLoop (N : Net) (peer : Bytes) : Nat → Bytes → Bool → Bool
  | 0, _, allow => allow
  | fuel + 1, list, allow =>
    if list = [] then allow
    else
      let ent := list.takeWhile (fun c => c ≠ 44)
      let rest := (list.dropWhile (fun c => c ≠ 44)).drop 1
      if ent.length ≥ CIDR_ENTRY_SZ then false
      else
        match readEntry N (cstr ent) with
        | none => false
        | some (addr, bits) =>
          if addr.length ≠ peer.length then sourceLoop N peer fuel rest allow
          else if osshPrefixMatch peer addr bits addr.length then sourceLoop N peer fuel rest true
          else sourceLoop N peer fuel rest allow

/-- `OsshSourceAddrMatch` (auth.c:1590-1715). -/
def osshSourceAddrMatch (N : Net) (list peerIp : Bytes) : Bool :=
  match peerAddr N peerIp with
  | none => false
  | some peer => sourceLoop N peer list.length list false

/-- `OsshCertCheckSourceAddress` (auth.c:1718-1732 and on): `peerIp` is `none` for NULL. -/
def osshCertCheckSourceAddress (N : Net) (sh : Shown) (peerIp : Option Bytes) : AuthRc :=
  match sh.restrictions.sourceAddress with
  | none => .success
  | some [] => .success
  | some (c :: l) =>
    match peerIp with
    | none => .failure
    | some [] => .failure
    | some (p :: ip) => if osshSourceAddrMatch N (c :: l) (p :: ip) then .success else .failure

end Wolf.Sshd
