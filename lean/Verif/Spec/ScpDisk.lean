import Verif.Model.ScpDisk
import Verif.Spec.ScpSink
/-!
# SCP: what a copy leaves in the file system
-/

namespace Spec.Scp
open Wolf (Byte Bytes)
open Wolf.Scp (Place Node Fs)

/-- The times a file should have in the end. Both zero stands for none. -/
def stamp (ts : Option (Nat × Nat)) : Option (Nat × Nat) := if ts = some (0, 0) then none else ts

/-- The files and directories that the items stand for, when they are put into the directory `at_`. -/
def entries (at_ : Place) : List Item → List (Place × Node)
  | [] => []
  | .file ts _ name data :: is => (at_ ++ [name], .file data (stamp ts)) :: entries at_ is
  | .dir _ mode name :: is => (at_ ++ [name], .dir mode) :: entries (at_ ++ [name]) is
  | .endDir :: is => entries at_.dropLast is

/-- `k` directories are open; no more are left than were entered. -/
def Nested : Nat → List Item → Prop
  | _, [] => True
  | k, .file _ _ _ _ :: is => Nested k is
  | k, .dir _ _ _ :: is => Nested (k + 1) is
  | 0, .endDir :: _ => False
  | k + 1, .endDir :: is => Nested k is

/-- What is there is nothing, or of the same kind. -/
def Free : Option Node → Node → Prop
  | none, _ => True
  | some (.file _ _), .file _ _ => True
  | some (.dir _), .dir _ => True
  | _, _ => False

/-- What should be there in the end, if `was` was there. A directory that was there keeps its permissions. -/
def Holds (was is : Option Node) : Node → Prop
  | .dir m => ∃ m', is = some (.dir m') ∧ (was = none → m' = m)
  | n => is = some n

end Spec.Scp
