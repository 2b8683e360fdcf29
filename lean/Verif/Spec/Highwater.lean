import Verif.Model.Packet
/-!
# When the highwater callback is due
-/

namespace Spec.Highwater
open Wolf.Packet

/-- Amounts under the current keys: encrypted bytes and packets sent since the last key change of
this side's sending, the same for receiving. -/
structure Amounts where
  txBytes : Nat
  txPackets : Nat
  rxBytes : Nat
  rxPackets : Nat

/-- Counting, without wrap. -/
def count (a : Amounts) : HwOp → Amounts
  | .encrypted n => { a with txBytes := a.txBytes + n }
  | .bundled => { a with txPackets := a.txPackets + 1 }
  | .decrypted n => { a with rxBytes := a.rxBytes + n }
  | .consumed => { a with rxPackets := a.rxPackets + 1 }
  | .sentNewKeys => { a with txBytes := 0, txPackets := 0 }
  | .gotNewKeys => { a with rxBytes := 0, rxPackets := 0 }
  | _ => a

/-- Counting a history. -/
def counts (a : Amounts) (ops : List HwOp) : Amounts := ops.foldl count a

/-- The limit on bytes in force after a history, `m` before it. -/
def byteLimit (m : Nat) : List HwOp → Nat
  | [] => m
  | .setMark n :: ops => byteLimit n ops
  | _ :: ops => byteLimit m ops

/-- The limit on packets in force after a history, `m` before it. -/
def packetLimit (m : Nat) : List HwOp → Nat
  | [] => m
  | .setMsgMark n :: ops => packetLimit n ops
  | _ :: ops => packetLimit m ops

/-- A limit (zero: none) is reached in one direction or the other. -/
def Reached (limit a b : Nat) : Prop := limit ≠ 0 ∧ (limit ≤ a ∨ limit ≤ b)

/-- The state of affairs at the beginning of a key epoch: amounts and limits. -/
structure Start where
  amounts : Amounts
  mark : Nat
  msgMark : Nat

/-- The limit on bytes is reached after `ops`. -/
def BytesReached (s : Start) (ops : List HwOp) : Prop :=
  Reached (byteLimit s.mark ops) (counts s.amounts ops).txBytes (counts s.amounts ops).rxBytes

/-- The limit on packets is reached after `ops`. -/
def PacketsReached (s : Start) (ops : List HwOp) : Prop :=
  Reached (packetLimit s.msgMark ops) (counts s.amounts ops).txPackets (counts s.amounts ops).rxPackets

/-- Some earlier check of the epoch found `R`. -/
def Before (R : List HwOp → Prop) (ops : List HwOp) : Prop :=
  ∃ a b, ops = a ++ HwOp.check :: b ∧ R a

/-- No counter wraps: less than 2^32 bytes and packets under one key. -/
def Small (a : Amounts) : Prop :=
  a.txBytes < 2^32 ∧ a.txPackets < 2^32 ∧ a.rxBytes < 2^32 ∧ a.rxPackets < 2^32

end Spec.Highwater
