import Verif.Spec.Wire
import Verif.Spec.Path
import Verif.Model.Posix
/-!
# SFTP version 3 (draft-ietf-secsh-filexfer-02): attributes, requests, replies
-/

namespace Spec.Sftp
open Spec.Wire Spec.Path

/-- File attributes (section 5), without extensions. -/
structure Attrs where
  size : Option Nat := none
  owner : Option (Nat × Nat) := none
  perm : Option Nat := none
  times : Option (Nat × Nat) := none
  deriving DecidableEq, Repr

/-- A field that is there only if its flag is set. -/
def field {α : Type} (present : Bool) (grammar : List UInt8 → Option (α × List UInt8)) (msg : List UInt8) :
    Option (Option α × List UInt8) :=
  if present then (grammar msg).map fun r => (some r.1, r.2) else some (none, msg)

/-- Two uint32. -/
def pair (msg : List UInt8) : Option ((Nat × Nat) × List UInt8) :=
  (uint32 msg).bind fun a => (uint32 a.2).map fun b => ((a.1, b.1), b.2)

/-- What follows `n` extensions, each a pair of strings. -/
def extensions : Nat → List UInt8 → Option (List UInt8)
  | 0, msg => some msg
  | n + 1, msg => (string msg).bind fun a => (string a.2).bind fun b => extensions n b.2

/-- The grammar of file attributes: flags, and the fields whose flag is set. -/
def attrs (msg : List UInt8) : Option (Attrs × List UInt8) :=
  (uint32 msg).bind fun flags =>
  (field (flags.1.testBit 0) uint64 flags.2).bind fun size =>
  (field (flags.1.testBit 1) pair size.2).bind fun owner =>
  (field (flags.1.testBit 2) uint32 owner.2).bind fun perm =>
  (field (flags.1.testBit 3) pair perm.2).bind fun times =>
  (field (flags.1.testBit 31) uint32 times.2).bind fun ext =>
  (extensions (ext.1.getD 0) ext.2).map fun rest => (⟨size.1, owner.1, perm.1, times.1⟩, rest)

/-- A uint64. -/
def encUint64 (n : Nat) : List UInt8 := encUint32 (n / 2 ^ 32) ++ encUint32 (n % 2 ^ 32)

/-- An optional field. -/
def encField {α : Type} (f : α → List UInt8) : Option α → List UInt8
  | none => []
  | some v => f v

/-- The flags of attributes. -/
def Attrs.flags (a : Attrs) : Nat :=
  a.size.isSome.toNat + 2 * a.owner.isSome.toNat + 4 * a.perm.isSome.toNat + 8 * a.times.isSome.toNat

/-- The encoding of attributes. -/
def encAttrs (a : Attrs) : List UInt8 :=
  encUint32 a.flags ++ encField encUint64 a.size ++ encField (fun p => encUint32 p.1 ++ encUint32 p.2) a.owner ++
    encField encUint32 a.perm ++ encField (fun p => encUint32 p.1 ++ encUint32 p.2) a.times

/-- Replies (section 7). -/
inductive Reply where
  | status (code : Nat) (message language : List UInt8)
  | handle (h : List UInt8)
  | data (d : List UInt8)
  | names (l : List (List UInt8 × List UInt8 × Attrs))
  | attrs (a : Attrs)
  deriving DecidableEq, Repr

/-- The type byte. -/
def Reply.type : Reply → UInt8
  | .status .. => 101
  | .handle .. => 102
  | .data .. => 103
  | .names .. => 104
  | .attrs .. => 105

/-- An entry of a listing. -/
def encName (n : List UInt8 × List UInt8 × Attrs) : List UInt8 := encString n.1 ++ encString n.2.1 ++ encAttrs n.2.2

/-- What follows the request id. -/
def Reply.body : Reply → List UInt8
  | .status code message language => encUint32 code ++ encString message ++ encString language
  | .handle h => encString h
  | .data d => encString d
  | .names l => encUint32 l.length ++ l.flatMap encName
  | .attrs a => encAttrs a

/-- A packet: uint32 length, byte type, uint32 request id, body (sections 3 and 4). -/
def Reply.packet (id : Nat) (r : Reply) : List UInt8 := encString (r.type :: (encUint32 id ++ r.body))

/-- The entries of a listing. -/
def names : Nat → List UInt8 → Option (List (List UInt8 × List UInt8 × Attrs) × List UInt8)
  | 0, msg => some ([], msg)
  | n + 1, msg =>
    (string msg).bind fun f => (string f.2).bind fun l => (Sftp.attrs l.2).bind fun a =>
      (names n a.2).map fun r => ((f.1, l.1, a.1) :: r.1, r.2)

/-- What a client reads in a packet: the request id and the reply. -/
def decode (msg : List UInt8) : Option (Nat × Reply) :=
  (string msg).bind fun p =>
  (byte p.1).bind fun t =>
  (uint32 t.2).bind fun id =>
  if t.1 = 101 then
    (uint32 id.2).bind fun c => (string c.2).bind fun m => (string m.2).map fun l => (id.1, .status c.1 m.1 l.1)
  else if t.1 = 102 then (string id.2).map fun h => (id.1, .handle h.1)
  else if t.1 = 103 then (string id.2).map fun h => (id.1, .data h.1)
  else if t.1 = 104 then (uint32 id.2).bind fun n => (names n.1 n.2).map fun l => (id.1, .names l.1)
  else if t.1 = 105 then (Sftp.attrs id.2).map fun a => (id.1, .attrs a.1)
  else none

/-- The numbers fit. -/
def Attrs.Fits (a : Attrs) : Prop :=
  (∀ n, a.size = some n → n < 2 ^ 64) ∧ (∀ p, a.owner = some p → p.1 < 2 ^ 32 ∧ p.2 < 2 ^ 32) ∧
    (∀ n, a.perm = some n → n < 2 ^ 32) ∧ ∀ p, a.times = some p → p.1 < 2 ^ 32 ∧ p.2 < 2 ^ 32

def Reply.Fits (r : Reply) : Prop :=
  r.body.length + 5 < 2 ^ 32 ∧
    match r with
    | .status c .. => c < 2 ^ 32
    | .names l => ∀ n ∈ l, n.2.2.Fits
    | .attrs a => a.Fits
    | _ => True

/-- What a session with the start directory `default` and the jail `jail` makes of the path in a request (its bytes up to
the first NUL): the directory or file it names, a refusal, or it is too long for the server. -/
inductive Verdict where
  | admit (cs : List (List UInt8))
  | deny
  | tooLong

/-- The server has 256 bytes for a path: for the path in the request, and for the absolute path of everything on the way. -/
def Short (default : Option (List (List UInt8))) (p : List UInt8) : Prop :=
  p.length < 256 ∧ ∀ k, (render (resolve (start (default.getD []) (p.takeWhile (· ≠ 0)))
    ((components (p.takeWhile (· ≠ 0))).take k))).length < 256

/-- The directory or file a path names. -/
def target (default : Option (List (List UInt8))) (p : List UInt8) : List (List UInt8) :=
  resolve (start (default.getD []) (p.takeWhile (· ≠ 0))) (components (p.takeWhile (· ≠ 0)))

open Classical in
noncomputable def verdict (default jail : Option (List (List UInt8))) (isLink : List UInt8 → Bool) (p : List UInt8) : Verdict :=
  if Short default p then if Confined jail isLink (target default p) then .admit (target default p) else .deny else .tooLong

/-- The flags of an open request (section 6.3): read, write, append, create, truncate, exclude. -/
def flagsOf (pf : Nat) : Posix.Flags :=
  { access := match pf.testBit 0, pf.testBit 1 with
      | true, true => .rdwr
      | false, true => .wronly
      | _, false => .rdonly
    append := pf.testBit 2
    creat := pf.testBit 3
    trunc := pf.testBit 4
    excl := pf.testBit 5 }

/-- A regular file: the type bits of the mode are 0o10 (POSIX `S_IFREG`). -/
def regular (st : Posix.Stat) : Bool := decide (st.mode / 4096 % 64 = 8)

end Spec.Sftp
