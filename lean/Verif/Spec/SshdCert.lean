import Verif.Spec.NameList
import Verif.Spec.Wire
/-!
# When a certificate may be used: its principals, its validity, the addresses it may be used from

PROTOCOL.certkeys of OpenSSH, and the lists of address ranges of `source-address`.
-/

namespace Spec.SshdCert

/-- Strings one after the other. -/
def encStrings (l : List (List UInt8)) : List UInt8 := (l.map Spec.Wire.encString).flatten

/-- `name` is one of the principals: the region starts with a run of strings that ends with it. -/
def Principal (region name : List UInt8) : Prop :=
  ∃ before after, region = encStrings before ++ Spec.Wire.encString name ++ after ∧
    ∀ s ∈ before, s.length < 2 ^ 32

/-- The certificate is valid at `now`: from `after` on, before `before`. -/
def Valid (after before now : Nat) : Prop := after ≤ now ∧ now < before

/-! ## Addresses -/

/-- A decimal number. -/
def Decimal (d : List UInt8) (n : Nat) : Prop :=
  d ≠ [] ∧ (∀ c ∈ d, 48 ≤ c.toNat ∧ c.toNat ≤ 57) ∧ n = d.foldl (fun n c => 10 * n + (c.toNat - 48)) 0

/-- Reading an address as text: `p4` reads IPv4, `p6` reads IPv6. -/
def address (p4 p6 : List UInt8 → Option (List UInt8)) (t : List UInt8) : Option (List UInt8) :=
  (p4 t).or (p6 t)

/-- What the readers of addresses are: they give 4 and 16 bytes, and neither the empty text nor one that starts
with `!` is an address. -/
def Readers (p4 p6 : List UInt8 → Option (List UInt8)) : Prop :=
  (∀ t a, p4 t = some a → a.length = 4) ∧ (∀ t a, p6 t = some a → a.length = 16) ∧
  ∀ t, t = [] ∨ t.head? = some 33 → p4 t = none ∧ p6 t = none

/-- The entry `e` is the range of the addresses that share their first `bits` bits with `a`: `address/bits`, or a
single address. -/
def Range (p4 p6 : List UInt8 → Option (List UInt8)) (e a : List UInt8) (bits : Nat) : Prop :=
  (47 ∉ e ∧ address p4 p6 e = some a ∧ bits = 8 * a.length) ∨
  ∃ t d, e = t ++ 47 :: d ∧ 47 ∉ t ∧ address p4 p6 t = some a ∧ Decimal d bits ∧ bits ≤ 8 * a.length

/-- The address `x` is in the range: of the same kind, and the same number up to the last bits. -/
def Inside (a : List UInt8) (bits : Nat) (x : List UInt8) : Prop :=
  x.length = a.length ∧
  Spec.Wire.beNat x / 2 ^ (8 * a.length - bits) = Spec.Wire.beNat a / 2 ^ (8 * a.length - bits)

/-- An IPv4 address written as IPv6 (`::ffff:a.b.c.d`) is that IPv4 address. -/
def unmapped (a : List UInt8) : List UInt8 :=
  if a.length = 16 ∧ a.take 12 = [0, 0, 0, 0, 0, 0, 0, 0, 0, 0, 255, 255] then a.drop 12 else a

/-- The list lets the peer in: every entry is an address or a range, and the peer is inside one of them. -/
def Permits (p4 p6 : List UInt8 → Option (List UInt8)) (list peer : List UInt8) : Prop :=
  (∀ e ∈ Spec.NameList.split 44 list, ∃ a n, Range p4 p6 e a n) ∧
  ∃ x, address p4 p6 peer = some x ∧
    ∃ e ∈ Spec.NameList.split 44 list, ∃ a n, Range p4 p6 e a n ∧ Inside a n (unmapped x)

end Spec.SshdCert
