import Verif.Spec.Wire
/-!
# Key derivation (RFC 4253 section 7.2)
-/

namespace Spec.Kdf

/-- `K1 || .. || Kn` with `K1 = HASH(K || H || letter || session_id)` and
`K(i+1) = HASH(K || H || K1 || .. || Ki)`. -/
def stream (hash : List UInt8 → List UInt8) (K H sid : List UInt8) (letter : UInt8) : Nat → List UInt8
  | 0 => []
  | 1 => hash (K ++ H ++ [letter] ++ sid)
  | n + 2 =>
    let sofar := stream hash K H sid letter (n + 1)
    sofar ++ hash (K ++ H ++ sofar)

/-- `key` is the key of `len` bytes derived for `letter`: the leading part of as many blocks as it takes. -/
def IsKey (hash : List UInt8 → List UInt8) (K H sid : List UInt8) (letter : Char) (len : Nat) (key : List UInt8) : Prop :=
  key.length = len ∧ ∃ n, key <+: stream hash K H sid (UInt8.ofNat letter.toNat) n

/-- The six keys of RFC 4253 section 7.2, for the sizes each direction needs. -/
structure Six (hash : List UInt8 → List UInt8) (K H sid : List UInt8)
    (ivCS encCS macCS ivSC encSC macSC : List UInt8) : Prop where
  a : IsKey hash K H sid 'A' ivCS.length ivCS
  b : IsKey hash K H sid 'B' ivSC.length ivSC
  c : IsKey hash K H sid 'C' encCS.length encCS
  d : IsKey hash K H sid 'D' encSC.length encSC
  e : IsKey hash K H sid 'E' macCS.length macCS
  f : IsKey hash K H sid 'F' macSC.length macSC

end Spec.Kdf
