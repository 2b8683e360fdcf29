import Verif.Spec.SftpOps
import Verif.Model.SftpOps
/-!
# What the calls of the SFTP client mean in terms of the protocol
-/

namespace Spec.SftpOps
open Spec.Sftp Wolf.SftpOps

/-- What the client asks about first. -/
def first : Op → Option Request
  | .rename old _ => some (.stat old)
  | .remove p => some (.lstat p)
  | .chmod p _ => some (.stat p)
  | _ => none

/-- Attributes of the API as the protocol has them. -/
def shown (a : Wolf.Sftp.Attr) : Attrs :=
  { size := if a.flags.testBit 0 then some (a.sz1 * 2 ^ 32 + a.sz0) else none
    owner := if a.flags.testBit 1 then some (a.uid, a.gid) else none
    perm := if a.flags.testBit 2 then some a.per else none
    times := if a.flags.testBit 3 then some (a.atime, a.mtime) else none }

/-- The change that the application wants (`wolfSSH_SFTP_CHMOD`: with the attributes the server gave and a new mode). -/
def change (given : Attrs) (mode : Nat) : Op → Request
  | .rename old new => .rename old new
  | .remove p => .remove p
  | .rmdir p => .rmdir p
  | .mkdir p => .mkdir p { perm := some 0o777 }
  | .setstat p a => .setstat p (shown a)
  | .chmod p _ => .setstat p { given with perm := given.perm.map fun _ => mode }

/-- Is it `wolfSSH_SFTP_CHMOD`? -/
def chmods : Op → Bool
  | .chmod .. => true
  | _ => false

/-- The arguments make sense: attributes of the API have only the flags of version 3 without extensions, and their numbers fit. -/
def Sane : Op → Prop
  | .setstat _ a => a.flags < 16 ∧ a.sz0 < 2 ^ 32
  | _ => True

/-- What was handed to the channel. -/
def outOf : Call → List UInt8
  | .at c _ => c.out
  | .done c _ => c.out
  | .ub => []

/-- The packet with which the client asks first, if it does. -/
def question (o : Op) (id : Nat) : List UInt8 :=
  match first o with
  | some r => r.packet id
  | none => []

/-- The id of the request for the change. -/
def changeId (o : Op) (id : Nat) : Nat :=
  match first o with
  | some _ => (id + 1) % 2 ^ 32
  | none => id

/-- What the server says before it answers the request for the change. -/
def told (o : Op) (a : Attrs) (id : Nat) : List UInt8 :=
  match first o with
  | some _ => (Reply.attrs a).packet id
  | none => []

/-- A lower layer that does its work, or asks to be called again. -/
def Fine : Wolf.SftpClient.Ev → Prop
  | .send (.error _) err _ => Wolf.SftpClient.want err = true
  | .read k err => Wolf.SftpClient.want err = true ∨ 2 ^ 31 ≤ k
  | _ => True

end Spec.SftpOps
