import Verif.Spec.SftpClient
/-!
# Requests that change the files of a server, and those that ask about them
-/

namespace Spec.SftpOps
open Spec.Wire Spec.Sftp

/-- Requests (draft-ietf-secsh-filexfer-02 sections 6.5 to 6.9). -/
inductive Request where
  | lstat (path : List UInt8)
  | setstat (path : List UInt8) (a : Attrs)
  | remove (path : List UInt8)
  | mkdir (path : List UInt8) (a : Attrs)
  | rmdir (path : List UInt8)
  | stat (path : List UInt8)
  | rename (old new : List UInt8)
  deriving DecidableEq, Repr

/-- The type byte. -/
def Request.type : Request → UInt8
  | .lstat .. => 7
  | .setstat .. => 9
  | .remove .. => 13
  | .mkdir .. => 14
  | .rmdir .. => 15
  | .stat .. => 17
  | .rename .. => 18

/-- What follows the request id. -/
def Request.body : Request → List UInt8
  | .lstat p | .remove p | .rmdir p | .stat p => encString p
  | .setstat p a | .mkdir p a => encString p ++ encAttrs a
  | .rename old new => encString old ++ encString new

/-- A packet. -/
def Request.packet (id : Nat) (r : Request) : List UInt8 := encString (r.type :: (encUint32 id ++ r.body))

end Spec.SftpOps
