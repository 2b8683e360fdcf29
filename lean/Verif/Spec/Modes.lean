import Verif.Model.Modes
import Verif.Spec.Wire
/-!
# Encoded terminal modes (RFC 4254, section 8; RFC 8160)
-/

namespace Spec.Modes
open Spec.Wire Wolf.Modes

/-- The numbers of control characters. -/
def IsChar (op : Nat) : Prop := 1 ≤ op ∧ op ≤ 18

/-- The numbers of flags, by what they are about: input, local, output and control modes. -/
def field (op : Nat) : Option Field :=
  if 30 ≤ op ∧ op ≤ 42 then some .iflag
  else if 50 ≤ op ∧ op ≤ 62 then some .lflag
  else if 70 ≤ op ∧ op ≤ 75 then some .oflag
  else if 90 ≤ op ∧ op ≤ 93 then some .cflag
  else none

/-- Modes as bytes: a byte and four bytes each, ended by a zero byte. -/
def enc (l : List (Nat × Nat)) : List UInt8 := (l.map fun m => UInt8.ofNat m.1 :: encUint32 m.2).flatten ++ [0]

/-- The modes that bytes tell: up to a zero byte, a byte of 160 or more, or the last five whole bytes. -/
def decode : List UInt8 → List (Nat × Nat)
  | op :: a :: b :: c :: d :: rest =>
    if op.toNat = 0 ∨ 160 ≤ op.toNat then [] else (op.toNat, beNat [a, b, c, d]) :: decode rest
  | _ => []

/-- The last value told for a mode. -/
def last (op : Nat) : List (Nat × Nat) → Option Nat
  | [] => none
  | m :: l =>
    match last op l with
    | some v => some v
    | none => if m.1 = op then some m.2 else none

/-- The last speed told for a mode that the platform takes. -/
def lastSpeed (p : Platform) (op : Nat) : List (Nat × Nat) → Option Nat
  | [] => none
  | m :: l =>
    match lastSpeed p op l with
    | some v => some v
    | none => if m.1 = op ∧ p.speed m.2 then some m.2 else none

/-- The settings of a terminal, as far as its platform has them: a flag is 1 if any of its bits is set. -/
def settings (p : Platform) (t : Termios) : List (Nat × Nat) :=
  [(128, t.ospeed), (129, t.ospeed)] ++
  (List.range' 1 18).filterMap (fun op => (p.cc op).map fun i => (op, (t.cc i).toNat)) ++
  (List.range' 30 64).filterMap (fun op => (field op).bind fun f => (p.mask op).map fun m =>
    (op, if t.flag f &&& m = 0 then 0 else 1))

/-- No two control characters of the platform share a place. -/
def CharAlone (p : Platform) (op : Nat) : Prop :=
  ∀ op', IsChar op' → op' ≠ op → p.cc op' = none ∨ p.cc op' ≠ p.cc op

/-- The bits `m` belong to no other flag. -/
def FlagAlone (p : Platform) (f : Field) (op : Nat) (m : BitVec 32) : Prop :=
  ∀ op' m', field op' = some f → op' ≠ op → p.mask op' = some m' → m' &&& m = 0

end Spec.Modes
