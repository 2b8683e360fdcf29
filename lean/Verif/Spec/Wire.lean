/-!
# Specification of the SSH data types (RFC 4251 section 5)

Independent of the model: a big-endian number, and the grammar of each data type as a function
on the remaining bytes of a message.
-/

namespace Spec.Wire

/-- Value of a big-endian byte string. -/
def beNat (bs : List UInt8) : Nat := bs.foldl (fun n b => 256 * n + b.toNat) 0

/-- uint32: four bytes, most significant first. -/
def uint32 (msg : List UInt8) : Option (Nat × List UInt8) :=
  if 4 ≤ msg.length then some (beNat (msg.take 4), msg.drop 4) else none

/-- boolean / byte: one byte. -/
def byte (msg : List UInt8) : Option (UInt8 × List UInt8) :=
  match msg with
  | [] => none
  | b :: rest => some (b, rest)

/-- uint64: eight bytes, most significant first. -/
def uint64 (msg : List UInt8) : Option (Nat × List UInt8) :=
  if 8 ≤ msg.length then some (beNat (msg.take 8), msg.drop 8) else none

/-- string: a uint32 length and that many bytes. -/
def string (msg : List UInt8) : Option (List UInt8 × List UInt8) :=
  match uint32 msg with
  | none => none
  | some (n, rest) => if n ≤ rest.length then some (rest.take n, rest.drop n) else none

/-- A non-negative mpint: a string whose first byte, if any, is below 128. -/
def mpint (msg : List UInt8) : Option (List UInt8 × List UInt8) :=
  match string msg with
  | some (b :: bs, rest) => if b.toNat < 128 then some (b :: bs, rest) else none
  | other => other

/-- The canonical mpint encoding of a number (contents, without the length): no redundant
leading zero byte, not negative. Zero is the empty string. -/
def CanonicalMpint (bs : List UInt8) (n : Nat) : Prop :=
  beNat bs = n ∧
  (∀ b rest, bs = b :: rest → b.toNat < 128) ∧
  (∀ rest, bs = 0 :: rest → ∃ c rest', rest = c :: rest' ∧ 128 ≤ c.toNat)

/-- Encodings. -/
def encUint32 (n : Nat) : List UInt8 :=
  [UInt8.ofNat (n / 2^24 % 256), UInt8.ofNat (n / 2^16 % 256), UInt8.ofNat (n / 2^8 % 256), UInt8.ofNat (n % 256)]

def encString (s : List UInt8) : List UInt8 := encUint32 s.length ++ s

end Spec.Wire
