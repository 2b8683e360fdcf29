import Verif.Spec.Sftp
/-!
# The requests of an SFTP client, and what they do to a file
-/

namespace Spec.SftpClient
open Spec.Wire Spec.Sftp

/-- Requests (draft-ietf-secsh-filexfer-02 sections 6.3 to 6.8). -/
inductive Request where
  | stat (path : List UInt8)
  | open (path : List UInt8) (flags : Nat)
  | read (handle : List UInt8) (offset length : Nat)
  | write (handle : List UInt8) (offset : Nat) (data : List UInt8)
  | close (handle : List UInt8)
  deriving DecidableEq, Repr

/-- The type byte. -/
def Request.type : Request → UInt8
  | .open .. => 3
  | .close .. => 4
  | .read .. => 5
  | .write .. => 6
  | .stat .. => 17

/-- What follows the request id. Files are opened without attributes. -/
def Request.body : Request → List UInt8
  | .stat path => encString path
  | .open path flags => encString path ++ encUint32 flags ++ encAttrs {}
  | .read h off n => encString h ++ encUint64 off ++ encUint32 n
  | .write h off d => encString h ++ encUint64 off ++ encString d
  | .close h => encString h

/-- A packet. -/
def Request.packet (id : Nat) (r : Request) : List UInt8 := encString (r.type :: (encUint32 id ++ r.body))

/-- Packets, each with its request id. -/
def requests (l : List (Nat × Request)) : List UInt8 := l.flatMap fun r => r.2.packet r.1

/-- Replies to requests with ids that count up. -/
def answers (id : Nat) : List Reply → List UInt8
  | [] => []
  | r :: rs => r.packet id ++ answers ((id + 1) % 2 ^ 32) rs

/-- A file into which `data` is written at an offset; a gap is filled with zeros. -/
def pwrite (f : List UInt8) (off : Nat) (data : List UInt8) : List UInt8 :=
  f.take off ++ List.replicate (off - f.length) 0 ++ data ++ f.drop (off + data.length)

/-- What write requests make of a file. -/
def store (f : List UInt8) (ws : List (Nat × List UInt8)) : List UInt8 := ws.foldl (fun f w => pwrite f w.1 w.2) f

/-- Writes that carry a file over piece by piece from the offset `o`, each where the last one ended, or the last one once more; they
have got to `pos`. -/
inductive Pieces (file : List UInt8) (o : Nat) : List (Nat × List UInt8) → Nat → Prop where
  | nil : Pieces file o [] o
  | next {ws : List (Nat × List UInt8)} {pos n : Nat} (h : Pieces file o ws pos) (hn : pos + n ≤ file.length) (hp : 0 < n) :
      Pieces file o (ws ++ [(pos, (file.drop pos).take n)]) (pos + n)
  | again {ws : List (Nat × List UInt8)} {w : Nat × List UInt8} {pos : Nat} (h : Pieces file o (ws ++ [w]) pos) :
      Pieces file o (ws ++ [w] ++ [w]) pos

/-- A regular file or a symbolic link, by its permissions. -/
def Fetchable (a : Attrs) : Prop := ∃ p, a.perm = some p ∧ (p / 4096 % 64 = 8 ∨ p / 4096 % 64 = 10)

end Spec.SftpClient
