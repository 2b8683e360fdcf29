import Verif.Spec.SftpCalls
import Verif.Model.SftpLs
/-!
# Listing a directory, in terms of the protocol (draft-ietf-secsh-filexfer-02, sections 6.7, 6.11, 6.3)
-/

namespace Spec.SftpLs
open Spec.Wire Spec.Sftp

/-- A request: what it means, in the order of the type bytes 4, 11, 12 and 16. -/
inductive Request where
  | close (handle : List UInt8)
  | opendir (path : List UInt8)
  | readdir (handle : List UInt8)
  | realpath (path : List UInt8)
  deriving DecidableEq, Repr

/-- A packet: length, type, request id, string. -/
def Request.packet (id : Nat) : Request → List UInt8
  | .close h => encString (4 :: (encUint32 id ++ encString h))
  | .opendir p => encString (11 :: (encUint32 id ++ encString p))
  | .readdir h => encString (12 :: (encUint32 id ++ encString h))
  | .realpath p => encString (16 :: (encUint32 id ++ encString p))

/-- The id behind `id`. -/
def next (id : Nat) : Nat := (id + 1) % 2 ^ 32

/-- A directory as a server shows it: the entry that REALPATH is answered with, the handle, the entries packet by packet, the code,
message and language of the status behind them, and those of the status that answers CLOSE. -/
structure Dir where
  full : List UInt8 × List UInt8 × Attrs
  handle : List UInt8
  pages : List (List (List UInt8 × List UInt8 × Attrs))
  code : Nat
  stop : List UInt8 × List UInt8
  bye : List UInt8 × List UInt8

/-- Packets that a client of this kind takes: a name, a handle of 256 bytes at most, packets with at least one and not more than
1 MiB of entries, an error code behind them. -/
structure Dir.Ok (D : Dir) : Prop where
  name : D.full.1 ≠ []
  full : D.full.2.2.Fits ∧ (Reply.names [D.full]).body.length ≤ 2 ^ 20
  handle : D.handle.length ≤ 256
  pages : ∀ l ∈ D.pages, l ≠ [] ∧ (Reply.names l).body.length ≤ 2 ^ 20 ∧ ∀ n ∈ l, n.2.2.Fits
  code : 1 ≤ D.code ∧ D.code ≤ 8
  stop : (Reply.status D.code D.stop.1 D.stop.2).body.length ≤ 2 ^ 20
  bye : (Reply.status 0 D.bye.1 D.bye.2).body.length < 2 ^ 31

/-- What the server sends from the first READDIR on; CLOSE has the id of the last READDIR, the client counting up only when it gets
names. -/
def Dir.rest (D : Dir) : Nat → List (List (List UInt8 × List UInt8 × Attrs)) → List UInt8
  | id, [] => (Reply.status D.code D.stop.1 D.stop.2).packet id ++ (Reply.status 0 D.bye.1 D.bye.2).packet id
  | id, l :: ls => (Reply.names l).packet id ++ D.rest (next id) ls

/-- What the server sends. -/
def Dir.says (D : Dir) (id : Nat) : List UInt8 :=
  (Reply.names [D.full]).packet id ++ ((Reply.handle D.handle).packet (next id) ++ D.rest (next (next id)) D.pages)

/-- The requests from the first READDIR on. -/
def Dir.reads (D : Dir) : Nat → List (List (List UInt8 × List UInt8 × Attrs)) → List UInt8
  | id, [] => (Request.readdir D.handle).packet id ++ (Request.close D.handle).packet id
  | id, _ :: ls => (Request.readdir D.handle).packet id ++ D.reads (next id) ls

/-- The requests for the listing of `dir`. -/
def Dir.asked (D : Dir) (dir : List UInt8) (id : Nat) : List UInt8 :=
  (Request.realpath dir).packet id ++ ((Request.opendir D.full.1).packet (next id) ++ D.reads (next (next id)) D.pages)

/-- An entry of the list that the application gets, as the protocol has it. -/
def seen (e : Wolf.SftpLs.Entry) : List UInt8 × List UInt8 × Attrs := (e.name, e.long, Spec.SftpOps.shown e.atr)

/-- Called again, the call goes on. -/
def Again (err : Option Wolf.Err) : Prop := err = some .wantRead ∨ err = some .wantWrite ∨ err = some .rekeying

/-- A lower layer that does its work, or asks to be called again; it has nothing else to report when a packet is sent. -/
def Quiet : Wolf.SftpClient.Ev → Prop
  | .send (.error _) err _ => Again err
  | .send (.ok _) err _ => err = none
  | .read k err => Again err ∨ 2 ^ 31 ≤ k
  | _ => True

end Spec.SftpLs
