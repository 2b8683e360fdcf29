import Verif.Model.Basic
/-!
# SCP: what the messages say

The control messages of the SCP protocol as text, written without reference to the program.
-/

namespace Spec.Scp
open Wolf (Byte Bytes)

/-- The name of one entry of a directory, not a path. -/
def Plain (n : Bytes) : Prop := n ≠ [] ∧ n ≠ [46] ∧ n ≠ [46, 46] ∧ 47 ∉ n ∧ 92 ∉ n ∧ 0 ∉ n

instance (n : Bytes) : Decidable (Plain n) := by unfold Plain; infer_instance

/-- The number the digits `ds` stand for. -/
def number (base : Nat) (ds : Bytes) : Nat := ds.foldl (fun v b => v * base + (b.toNat - 48)) 0

/-- `s` is `v` written in decimal; leading zeros are allowed. -/
def Decimal (s : Bytes) (v : Nat) : Prop := s ≠ [] ∧ (∀ b ∈ s, 48 ≤ b ∧ b ≤ 57) ∧ number 10 s = v

instance (s : Bytes) (v : Nat) : Decidable (Decimal s v) := by unfold Decimal; infer_instance

/-- `s` is four octal digits that stand for `v`. -/
def Octal4 (s : Bytes) (v : Nat) : Prop := s.length = 4 ∧ (∀ b ∈ s, 48 ≤ b ∧ b ≤ 55) ∧ number 8 s = v

instance (s : Bytes) (v : Nat) : Decidable (Octal4 s v) := by unfold Octal4; infer_instance

/-- The message (without its newline) announces an entry: the letter, four octal digits, one more byte, the size, a space
and the name, which ends with the message or at a NUL. Of the mode only the nine permission bits count. -/
def Announces (letter : Byte) (m : Bytes) (mode size : Nat) (name : Bytes) : Prop :=
  ∃ o sp d rest v, m = [letter] ++ o ++ [sp] ++ d ++ [32] ++ name ++ rest ∧ Octal4 o v ∧ mode = v % 512 ∧
    Decimal d size ∧ size < 4294967296 ∧ Plain name ∧ (rest = [] ∨ rest.head? = some 0)

/-- The message tells times: `T`, the modification time, "0", the access time and the rest, with spaces between. -/
def Times (m : Bytes) (mt at_ : Nat) : Prop :=
  ∃ d e rest, m = [84] ++ d ++ [32, 48, 32] ++ e ++ [32] ++ rest ∧ Decimal d mt ∧ Decimal e at_ ∧
    mt < 18446744073709551616 ∧ at_ < 18446744073709551616

end Spec.Scp
