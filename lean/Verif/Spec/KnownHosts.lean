import Verif.Spec.Wire
/-!
# Files of known hosts and destinations
-/

namespace Spec.KnownHosts

/-- The parts of a text between separators. -/
def parts (d : UInt8) : List UInt8 → List (List UInt8)
  | [] => [[]]
  | b :: t =>
    if b = d then [] :: parts d t
    else match parts d t with
      | p :: ps => (b :: p) :: ps
      | [] => [[b]]

/-- An entry of a file of known hosts. -/
structure Entry where
  host : List UInt8
  type : List UInt8
  key : List UInt8
  deriving DecidableEq, Repr

/-- A line without a CR at its end. -/
def chomp (line : List UInt8) : List UInt8 := if line.getLast? = some 13 then line.dropLast else line

/-- The entry in a line: its first three fields, which are separated by one space each. -/
def entryOf (line : List UInt8) : Option Entry :=
  match parts 32 (chomp line) with
  | host :: type :: key :: _ => some ⟨host, type, key⟩
  | _ => none

/-- The entries of a file, line by line; nothing counts behind a NUL byte. -/
def entries (file : List UInt8) : List Entry := (parts 10 (file.takeWhile (· ≠ 0))).filterMap entryOf

/-- The key a file has for a host and a type: that of the first entry for them. -/
def knownKey (file host type : List UInt8) : Option (List UInt8) :=
  ((entries file).find? fun e => e.host = host ∧ e.type = type).map (·.key)

/-- The type in front of a key: a string of at most 53 bytes, up to a NUL byte. -/
def typeOf : List UInt8 → Option (List UInt8)
  | a :: b :: c :: d :: rest =>
    let n := ((a.toNat * 256 + b.toNat) * 256 + c.toNat) * 256 + d.toNat
    if n ≤ rest.length ∧ n ≤ 53 then some ((rest.take n).takeWhile (· ≠ 0)) else none
  | _ => none

/-- A field that can be stored: not empty, no control characters, no spaces. -/
def Plain (f : List UInt8) : Prop := f ≠ [] ∧ ∀ b ∈ f, 32 < b ∧ b ≠ 127

/-- The first certificate of a chain (RFC 6187): a name, the number of certificates, which is not 0, the certificate. -/
def firstCert (blob : List UInt8) : Option (List UInt8) :=
  match Spec.Wire.string blob with
  | none => none
  | some (_, r) =>
    match Spec.Wire.uint32 r with
    | none => none
    | some (n, r) => if n = 0 then none else (Spec.Wire.string r).map (·.1)

/-! ## Destinations -/

/-- The number written by decimal digits. -/
def number (ds : List UInt8) : Nat := ds.foldl (fun n b => 10 * n + (b.toNat - 48)) 0

/-- A port: white space, a plus sign, digits, from 1 to 65535. -/
def PortText (t : List UInt8) (n : Nat) : Prop :=
  ∃ ws sign ds, t = ws ++ sign ++ ds ∧ (∀ b ∈ ws, b = 32 ∨ (9 ≤ b ∧ b ≤ 13)) ∧ (sign = [] ∨ sign = [43]) ∧ ds ≠ [] ∧
    (∀ b ∈ ds, 48 ≤ b ∧ b ≤ 57) ∧ n = number ds ∧ 1 ≤ n ∧ n ≤ 65535

/-- A user in front of the rest: none (no `@`), or what is before the first `@`. -/
inductive UserPart : Option (List UInt8) → List UInt8 → List UInt8 → Prop where
  | none {r : List UInt8} (h : 64 ∉ r) : UserPart none r r
  | some {u r : List UInt8} (h : 64 ∉ u) : UserPart (some u) r (u ++ 64 :: r)

/-- A host and a port: no `:`; or nothing behind the first `:`; or a port there. -/
inductive HostPart : List UInt8 → Option Nat → List UInt8 → Prop where
  | bare {h : List UInt8} (hc : 58 ∉ h) : HostPart h none h
  | empty {h : List UInt8} (hc : 58 ∉ h) : HostPart h none (h ++ [58])
  | port {h t : List UInt8} {n : Nat} (hc : 58 ∉ h) (hp : PortText t n) : HostPart h (some n) (h ++ 58 :: t)

/-- `ssh://` -/
def scheme : List UInt8 := [115, 115, 104, 58, 47, 47]

/-- A destination: `[user@]host` or `ssh://[user@]host[:port]`. -/
inductive Destination : List UInt8 → Option (List UInt8) → List UInt8 → Option Nat → Prop where
  | plain {s h : List UInt8} {u : Option (List UInt8)} (hs : ¬ scheme <+: s) (hu : UserPart u h s) : Destination s u h none
  | uri {s r h : List UInt8} {u : Option (List UInt8)} {n : Option Nat} (hu : UserPart u r s) (hh : HostPart h n r) :
      Destination (scheme ++ s) u h n

end Spec.KnownHosts
