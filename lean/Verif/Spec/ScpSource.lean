import Verif.Model.ScpSource
import Verif.Spec.ScpSink
/-!
# SCP: what a sending side has to do

The duties that an answer of the send callback brings, as an automaton over what can be seen of the sending side.
-/

namespace Spec.Scp
open Wolf (Byte Bytes)
open Wolf.Scp (Req Ans Meta SrcOut)

/-- What the sender has to do next: write `t`, write an error message, or wait for a good confirmation. -/
inductive Duty where
  | say (t : Bytes)
  | sayError
  | hear
  deriving DecidableEq, Repr

/-- How a copy was asked for: recursively, with times. -/
structure Opts where
  recurse : Bool
  times : Bool
  deriving DecidableEq, Repr

/-- Where a sender is. `asked`: the request has been put to the callback. `sent`: inside a file, so many bytes of which the
callback has supplied. `over`: nothing is left but the duties. `excused`: the callback has supplied 4 GiB or more for one
file, although sizes are 32-bit numbers; then anything goes. -/
structure Talk where
  asked : Bool := false
  sent : Option Nat := none
  over : Bool := false
  excused : Bool := false
  duty : List Duty := []
  deriving DecidableEq, Repr

/-- Duties to say nothing are done. -/
def trim : List Duty → List Duty
  | .say [] :: ds => trim ds
  | ds => ds

/-- The texts that announce a file. -/
def announce (o : Opts) (m : Meta) : List Duty :=
  (if o.times then [.say (Wolf.Scp.timesHeader m.mtime m.atime), .hear] else []) ++
    [.say (Wolf.Scp.fileHeader m.mode m.size m.name), .hear]

/-- The callback has answered `a`. The first `data` for a file announces it; when all of the announced size has been
supplied, the file ends with a zero byte; and the copy of a single file ends there. -/
def plan (o : Opts) (t : Talk) (a : Ans) (m : Meta) : Talk :=
  match a with
  | .enterDir => { t with duty := [.say (Wolf.Scp.dirHeader m.mode m.name), .hear] }
  | .exitDir => { t with duty := [.say [69, 10], .hear] }
  | .exitDirFinal => { t with duty := [.say [69, 10], .hear], over := true }
  | .complete => { t with over := true }
  | .abort => { t with duty := [.sayError], over := true }
  | .eof | .fail => { t with over := true }
  | .data d =>
    let pre := if t.sent.isNone then announce o m else []
    let n := t.sent.getD 0 + d.length
    if n ≥ 4294967296 then { t with excused := true }
    else if n < m.size then { t with sent := some n, duty := trim (pre ++ [.say d]) }
    else { t with sent := none, over := !o.recurse, duty := trim (pre ++ [.say d, .say [0], .hear]) }

/-- What the sender may do, and where it is then. The callback is asked only when all duties are done: once whether it wants
to send at all, then for the next entry, or for more of the file from where it ends. Bytes are written only as the duties
say; nothing is written while a confirmation is due. -/
def comply (o : Opts) (t : Talk) (e : SrcOut) : Option Talk :=
  if t.excused then some t else match e with
  | .call r off a m =>
    if t.duty ≠ [] ∨ t.over then none
    else if t.asked = false then
      if r ≠ .newRequest then none
      else if a = .abort then some { t with asked := true, over := true, duty := [.hear, .sayError] }
      else if a = .eof then some { t with asked := true, over := true, duty := [.hear, .say [0]] }
      else some { t with asked := true, duty := [.hear] }
    else match t.sent with
      | none => if (r = .single ∨ r = .recursive) ∧ off = 0 then some (plan o t a m) else none
      | some n => if r = .cont ∧ off = n then some (plan o t a m) else none
  | .wrote b =>
    match t.duty with
    | .say x :: ds => if b <+: x then some { t with duty := trim (.say (x.drop b.length) :: ds) } else none
    | _ => none
  | .nak =>
    match t.duty with
    | .sayError :: ds => some { t with duty := ds }
    | _ => none
  | .conf _ =>
    match t.duty with
    | .hear :: ds => some { t with duty := trim ds }
    | _ => none

/-! ## What a whole transfer amounts to -/

/-- What was written, cut at the confirmations; and what was written since the last one. -/
def bursts (os : List SrcOut) : List Bytes × Bytes :=
  os.foldl (fun p e => match e with
    | .wrote b => (p.1, p.2 ++ b)
    | .conf _ => (p.1 ++ [p.2], [])
    | _ => p) ([], [])

/-- The answers of the callback, except to the question whether it wants to send at all. -/
def answers (os : List SrcOut) : List (Ans × Meta) :=
  os.filterMap fun
    | .call r _ a m => if r = .newRequest then none else some (a, m)
    | _ => none

/-- The callback has been asked, and wants to send. -/
def Agreed (os : List SrcOut) : Prop := ∃ a m rest, os = .call .newRequest 0 a m :: rest ∧ a ≠ .abort ∧ a ≠ .eof

/-- The entry for a file supplied in full. -/
def fileItem (o : Opts) (m : Meta) (d : Bytes) : Item :=
  .file (if o.times then some (m.mtime, m.atime) else none) (m.mode % 512) m.name d

/-- The entries that the callback has supplied; none if it has not kept its word: it gave up, left a file unfinished, supplied
more than the size it announced, or changed the size midway. `open_`: the file it is in, and what it has supplied of it. -/
def supplied (o : Opts) : Option (Meta × Bytes) → List (Ans × Meta) → Option (List Item)
  | none, [] => some []
  | some _, [] => none
  | none, (.enterDir, m) :: as => (supplied o none as).map (.dir none (m.mode % 512) m.name :: ·)
  | none, (.exitDir, _) :: as => (supplied o none as).map (.endDir :: ·)
  | none, (.exitDirFinal, _) :: as => (supplied o none as).map (.endDir :: ·)
  | none, (.complete, _) :: as => supplied o none as
  | none, (.data d, m) :: as =>
    if d.length < m.size then supplied o (some (m, d)) as
    else if d.length = m.size then (supplied o none as).map (fileItem o m d :: ·)
    else none
  | some (m, x), (.data d, m') :: as =>
    if m'.size ≠ m.size then none
    else if (x ++ d).length < m.size then supplied o (some (m, x ++ d)) as
    else if (x ++ d).length = m.size then (supplied o none as).map (fileItem o m (x ++ d) :: ·)
    else none
  | _, _ => none

/-- Name, size and times fit a message: a plain name of one line and at most 1005 bytes. -/
def Fits (m : Meta) : Prop :=
  Plain m.name ∧ 10 ∉ m.name ∧ m.name.length ≤ 1005 ∧ m.size < 4294967296 ∧ m.mtime < 18446744073709551616 ∧
    m.atime < 18446744073709551616

instance (m : Meta) : Decidable (Fits m) := by unfold Fits; infer_instance

/-- No read of no bytes and no data on the error stream. -/
def Reads (e : Wolf.Scp.SrcEv) : Prop := match e with
  | .arrive _ => True
  | .step i => i.rd ≠ .zero ∧ i.rd ≠ .ext

end Spec.Scp
