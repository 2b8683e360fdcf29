import Verif.Model.SshdSession
import Verif.Spec.SshdAuth
/-!
# What may be done for a user who is logged in

`Proc` (what a process may do), `Done` (what becomes of a connection), `Conf` (settings) and `Cred` (credentials) are the types
of the model.
-/

namespace Spec.SshdSession
open Wolf.Sshd (Proc Done Exec Conf Cred)

/-- The process has the ids and the groups of the user and no others. -/
def AsUser (p : Proc) (uid gid : Nat) (groups : List Nat) : Prop :=
  (p.ruid = uid ∧ p.euid = uid ∧ p.suid = uid) ∧ (p.rgid = gid ∧ p.egid = gid ∧ p.sgid = gid) ∧ p.groups = groups

/-- If a root directory is set, it is the root of the process, and the process is below it. -/
def Confined (p : Proc) (dir : Option (List UInt8)) : Prop :=
  ∀ d, dir = some d → p.root = some d ∧ p.inside = true

/-- `p` works for the user: it serves a transfer, or is the program that was started. -/
def ActsFor (r : Done) (p : Proc) : Prop :=
  r = .scp p ∨ r = .sftp p ∨ ∃ x parent, r = .shell (some x) parent ∧ x.proc = p

/-- The arguments of a shell that runs `cmd`, and of one that is asked for nothing. -/
def runs (cmd : Option (List UInt8)) : List (List UInt8) :=
  match cmd with
  | some c => ["-c".toUTF8.toList, c]
  | none => []

/-- The certificate of a credential forces the command `v`. -/
def Forces (cred : Cred) (v : List UInt8) : Prop :=
  ∃ k sh, cred = .publicKey k ∧ k.ossh = some sh ∧ sh.restrictions.forceCommand = some v ∧ v ≠ []

/-- It forces none. -/
def ForcesNone (cred : Cred) : Prop := ∀ v, ¬Forces cred v

end Spec.SshdSession
