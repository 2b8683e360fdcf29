import Verif.Spec.SftpLsOrder
import Verif.Spec.SftpServer
/-!
# A listing answered by the server of this library
-/

namespace Spec.SftpLs
open Spec.Wire

/-- The type byte of a request. -/
def Request.type : Request → Nat
  | .close _ => 4
  | .opendir _ => 11
  | .readdir _ => 12
  | .realpath _ => 16

/-- The string in a request. -/
def Request.arg : Request → List UInt8
  | .close x | .opendir x | .readdir x | .realpath x => x

/-- What the server sends and the session it is left with when these requests come in, each in an environment of its own: nothing if
it leaves one of them without an answer. -/
def answers : Wolf.Sftp.Sess → List (Wolf.Sftp.Env × Nat × Request) → Option (List UInt8 × Wolf.Sftp.Sess)
  | s, [] => some ([], s)
  | s, (E, id, r) :: l =>
    (Wolf.Sftp.handle E s r.type id (encString r.arg)).bind fun o => o.reply.bind fun p =>
      (answers o.st l).map fun q => (p ++ q.1, q.2)

/-- The requests from the first READDIR on, for the directory `h` which the server shows in `n` packets. -/
def readings (h : List UInt8) : Nat → Nat → List (Nat × Request)
  | 0, id => [(id, .readdir h), (id, .close h)]
  | n + 1, id => (id, .readdir h) :: readings h n (next id)

/-- The requests for the listing of `dir`, that is of the directory `full`. -/
def questions (dir full h : List UInt8) (n id : Nat) : List (Nat × Request) :=
  (id, .realpath dir) :: (next id, .opendir full) :: readings h n (next (next id))

end Spec.SftpLs
