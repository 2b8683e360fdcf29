import Verif.Spec.SftpOps
import Verif.Spec.SftpServer
/-!
# What a request to change the files of a server asks of the file system
-/

namespace Spec.SftpOps
open Spec.Sftp Spec.Path Wolf

/-- The call into the file system that a request asks for, in a session with the start directory `d` and the jail `j`: on the
files its paths name, if the session admits them. (Of the attributes of a SETSTAT the server sets the mode alone.) -/
noncomputable def wanted (d j : Option (List (List UInt8))) (isLink : List UInt8 → Bool) : Request → Option (Bool → Posix.Call)
  | .rmdir p =>
    match verdict d j isLink p with
    | .admit cs => some (.rmdir (render cs))
    | _ => none
  | .remove p =>
    match verdict d j isLink p with
    | .admit cs => some (.remove (render cs))
    | _ => none
  | .mkdir p a =>
    match verdict d j isLink p with
    | .admit cs => some (.mkdir (render cs) (newMode 0o755 a))
    | _ => none
  | .setstat p a =>
    match verdict d j isLink p, a.perm with
    | .admit cs, some m => some (.chmod (render cs) (m &&& 0o777))
    | _, _ => none
  | .rename p q =>
    match verdict d j isLink p, verdict d j isLink q with
    | .admit cs, .admit cs' => some (.rename (render cs) (render cs'))
    | _, _ => none
  | _ => none

/-- `ok` is the truth about a request: the call it asks for was made, and with this result; or it was refused. -/
def Told (w : Option (Bool → Posix.Call)) (calls : List Posix.Call) (ok : Bool) : Prop :=
  match w with
  | some f => calls = [f ok]
  | none => calls = [] ∧ ok = false

/-- The request changes the files: all but LSTAT and STAT. (A SETSTAT without a mode changes nothing.) -/
def Request.Changes : Request → Prop
  | .lstat _ | .stat _ => False
  | .setstat _ a => a.perm.isSome
  | _ => True

/-- What is in it fits into the fields of the packet, which is shorter than 2^31. -/
def Request.Fits : Request → Prop
  | .lstat p | .remove p | .rmdir p | .stat p => p.length + 4 < 2 ^ 31
  | .setstat p a | .mkdir p a => p.length + 36 < 2 ^ 31 ∧ a.Fits
  | .rename p q => p.length + q.length + 8 < 2 ^ 31

end Spec.SftpOps
