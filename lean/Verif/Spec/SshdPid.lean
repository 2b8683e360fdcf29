import Verif.Model.SshdPid
import Verif.Spec.Scp
/-!
# Specification: the daemon's PID file
-/

namespace Spec.SshdPid
open Wolf.SshdPid (Inode Entry)

/-- A file the daemon may write to: a regular one, with no other name, that belongs to its user or to root. -/
structure Own (euid : Nat) (i : Inode) : Prop where
  reg : i.reg = true
  one : i.nlink = 1
  owner : i.uid = euid ∨ i.uid = 0

/-- There is none, or one that is safe. -/
def Fine (euid : Nat) (d : Option Entry) : Prop := d = none ∨ ∃ i, d = some (.file i) ∧ Own euid i

/-- What a reader may find: nothing; what there was before; or the number of the process, in a file that only its owner may write
to. -/
def Readable (euid pid : Nat) (old new : Option Entry) : Prop :=
  new = none ∨ new = old ∨
  (∃ i j, old = some (.file i) ∧ new = some (.file j) ∧ j.data = i.data ∧ Own euid j) ∨
  ∃ j, new = some (.file j) ∧ Spec.Scp.Decimal j.data pid ∧ j.mode = 0o644 ∧ Own euid j

end Spec.SshdPid
