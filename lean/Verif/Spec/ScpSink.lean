import Verif.Model.Scp
import Verif.Spec.Scp
/-!
# SCP: what a receiving application is told

The order of the calls of the receive callback, what they amount to, and a sending peer that follows the protocol.
-/

namespace Spec.Scp
open Wolf (Byte Bytes)
open Wolf.Scp (Call Cb Out)

/-- The calls among what could be seen, in order. -/
def calls (os : List Out) : List Call := os.filterMap fun | .call c _ => some c | _ => none

/-- Where an application that follows the calls is: before the request, between entries, or inside a file of which `got`
bytes have been handed over. -/
inductive Phase where
  | before
  | idle
  | inFile (name : Option Bytes) (mode mtime atime size got : Nat)
  deriving DecidableEq, Repr

/-- The calls that make sense in a phase. -/
def follow : Phase → Call → Option Phase
  | .before, .request => some .idle
  | .idle, .newFile n m mt at_ sz => some (.inFile n m mt at_ sz 0)
  | .idle, .newDir _ _ _ _ => some .idle
  | .idle, .endDir => some .idle
  | .inFile n m mt at_ sz got, .part n' sz' off d =>
    if n' = n ∧ sz' = sz ∧ off = got ∧ got + d.length ≤ sz then some (.inFile n m mt at_ sz (got + d.length)) else none
  | .inFile n m mt at_ sz got, .fileDone n' m' mt' at' sz' =>
    if n' = n ∧ m' = m ∧ mt' = mt ∧ at' = at_ ∧ sz' = sz ∧ got = sz then some .idle else none
  | _, _ => none

/-- One request first; then entries one after the other; a file is opened, handed over piece by piece without gap or
overlap, and closed only when all of the announced size has been handed over. -/
def Orderly (cs : List Call) : Prop := ∃ p, cs.foldlM follow .before = some p

/-- What an application has been given. -/
inductive Got where
  | file (name : Option Bytes) (mode mtime atime : Nat) (data : Bytes)
  | dir (name : Option Bytes) (mode mtime atime : Nat)
  | endDir
  deriving DecidableEq, Repr

/-- The calls put together; `acc` is what has been handed over of the file that is open. -/
def given (acc : Bytes) : List Call → List Got
  | [] => []
  | .part _ _ _ d :: cs => given (acc ++ d) cs
  | .fileDone n m mt at_ _ :: cs => .file n m mt at_ acc :: given [] cs
  | .newDir n m mt at_ :: cs => .dir n m mt at_ :: given acc cs
  | .endDir :: cs => .endDir :: given acc cs
  | .newFile _ _ _ _ _ :: cs => given [] cs
  | .request :: cs => given acc cs

/-- The names in the calls that open a file or a directory. -/
def names (cs : List Call) : List (Option Bytes) :=
  cs.filterMap fun
    | .newFile n _ _ _ _ => some n
    | .newDir n _ _ _ => some n
    | _ => none

/-! ## A peer that sends files -/

/-- What a peer sends: a file or a directory, with or without times (modification, access), or the end of a directory. -/
inductive Item where
  | file (times : Option (Nat × Nat)) (mode : Nat) (name data : Bytes)
  | dir (times : Option (Nat × Nat)) (mode : Nat) (name : Bytes)
  | endDir
  deriving DecidableEq, Repr

/-- A control message without its newline: one line that fits the receiver's buffer. -/
def Line (m : Bytes) : Prop := 10 ∉ m ∧ m.length < 1023

instance (m : Bytes) : Decidable (Line m) := by unfold Line; infer_instance

/-- The bursts that announce times. -/
inductive Stamp : Option (Nat × Nat) → List Bytes → Prop where
  | none : Stamp none []
  | some {t mt at_} : Times t mt at_ → Line t → Stamp (some (mt, at_)) [t ++ [10]]

/-- The bursts in which a peer sends the items; after each it waits for the receiver's confirmation. The contents of a file
end with a zero byte. -/
inductive Script : List Item → List Bytes → Prop where
  | nil : Script [] []
  | file {ts pre m mode name data is ss} : Stamp ts pre → Announces 67 m mode data.length name → Line m → Script is ss →
      Script (.file ts mode name data :: is) (pre ++ (m ++ [10]) :: (data ++ [0]) :: ss)
  | dir {ts pre m mode size name is ss} : Stamp ts pre → Announces 68 m mode size name → Line m → Script is ss →
      Script (.dir ts mode name :: is) (pre ++ (m ++ [10]) :: ss)
  | endDir {m is ss} : m.head? = some 69 → Line m → Script is ss → Script (.endDir :: is) ((m ++ [10]) :: ss)

/-- No entry without times comes after a directory with times, unless a file comes between. (The option to preserve times
holds for a whole copy; then all entries have times, or all files and no directories.) `k`: there was such a directory. -/
def Told : Bool → List Item → Prop
  | _, [] => True
  | k, .file ts _ _ _ :: is => (ts = none → k = false) ∧ Told false is
  | k, .dir ts _ _ :: is => (ts = none → k = false) ∧ Told ts.isSome is
  | k, .endDir :: is => Told k is

/-- What the receiving application should be given for the items. -/
def wanted : Item → Got
  | .file ts mode name data => .file (some name) mode (ts.getD (0, 0)).1 (ts.getD (0, 0)).2 data
  | .dir ts mode name => .dir (some name) mode (ts.getD (0, 0)).1 (ts.getD (0, 0)).2
  | .endDir => .endDir

/-- The receiver, the burst being delivered, the bursts sent and not yet begun to be delivered, and those to be sent. -/
structure Sys where
  sink : Wolf.Scp.Sink
  cur : Bytes
  wire : List Bytes
  todo : List Bytes

/-- Something happens: up to `n` bytes are delivered, or the receiver takes a step. -/
inductive Move where
  | deliver (n : Nat)
  | step (i : Wolf.Scp.In)

/-- A confirmation lets the peer send its next burst. -/
def answer (σ : Sys) (os : List Out) : Sys :=
  if Out.ack ∈ os then
    match σ.todo with
    | [] => σ
    | t :: ts => { σ with wire := σ.wire ++ [t], todo := ts }
  else σ

/-- One move. A burst begins to arrive only when the receiver has read all that arrived before. -/
def Sys.next (σ : Sys) : Move → Sys × List Out
  | .deliver n =>
    if σ.cur = [] then
      match σ.wire with
      | [] => (σ, [])
      | w :: ws => if σ.sink.chan = [] then ({ σ with cur := w, wire := ws }, []) else (σ, [])
    else ({ σ with sink := { σ.sink with chan := σ.sink.chan ++ σ.cur.take n }, cur := σ.cur.drop n }, [])
  | .step i =>
    let (s, os) := Wolf.Scp.step σ.sink i
    (answer { σ with sink := s } os, os)

def Sys.run (σ : Sys) : List Move → Sys × List Out
  | [] => (σ, [])
  | m :: ms => (((σ.next m).1.run ms).1, (σ.next m).2 ++ ((σ.next m).1.run ms).2)

/-- Nothing goes wrong on the way: data is read or not there yet, confirmations are sent, and the application goes on. -/
def Benign : Move → Prop
  | .deliver _ => True
  | .step i => (i.rd = .take ∨ i.rd = .spin ∨ i.rd = .want) ∧ i.snd ≠ .fail ∧ i.cb = .go ∧ i.cb2 = .go

/-- All has been sent and read, and the receiver waits for another message. -/
def Sys.Quiet (σ : Sys) : Prop :=
  σ.todo = [] ∧ σ.wire = [] ∧ σ.cur = [] ∧ σ.sink.chan = [] ∧ σ.sink.st = .recvMsg

end Spec.Scp
