import Verif.Model.SshdFile
/-!
# When a file can be trusted

The types `World` and `Stat` are those of the model (the questions an operating system answers); everything else is said here.
-/

namespace Spec.SshdFile
open Wolf.Sshd (World Stat)

/-- The group or others have write permission: one of the bits 4 and 1 of the mode. -/
def WritableByOthers (s : Stat) : Prop := s.mode.testBit 4 = true ∨ s.mode.testBit 1 = true

/-- The group or others have read permission. -/
def ReadableByOthers (s : Stat) : Prop := s.mode.testBit 5 = true ∨ s.mode.testBit 2 = true

/-- The sticky bit is set. -/
def Sticky (s : Stat) : Prop := s.mode.testBit 9 = true

/-- `d` is a directory on the way to the absolute path `p`: the root, or what stands before one of its slashes. -/
def OnTheWay (d p : List UInt8) : Prop :=
  d = [47] ∨ (d ≠ [] ∧ ∃ rest, p = d ++ 47 :: rest)

/-- A directory in which others cannot replace files: a directory, not writable by others unless sticky. -/
def SafeDir (W : World) (d : List UInt8) : Prop :=
  ∃ s, W.stat d = some s ∧ s.isDir = true ∧ (WritableByOthers s → Sticky s)

/-- The file at `path` has the given contents and can be trusted by `owner`: it is a regular file, no link, the one that was
opened; it belongs to the owner or to root; others cannot write it (nor read it, if it is secret); and every directory on the
way to it is safe. -/
def Trusted (W : World) (path : List UInt8) (owner : Nat) (secret : Bool) (contents : List UInt8) : Prop :=
  ∃ link real s, W.lstat path = some link ∧ link.isReg = true ∧ W.realpath path = some real ∧
    W.openRead real = some (s, contents) ∧ s.isReg = true ∧ (s.dev = link.dev ∧ s.ino = link.ino) ∧
    (s.uid = owner ∨ s.uid = 0) ∧ ¬WritableByOthers s ∧ (secret = true → ¬ReadableByOthers s) ∧
    ∀ d, OnTheWay d real → SafeDir W d

/-- `realpath` gives absolute paths. -/
def Absolute (W : World) : Prop := ∀ p r, W.realpath p = some r → r.head? = some 47

end Spec.SshdFile
