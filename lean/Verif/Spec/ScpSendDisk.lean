import Verif.Model.ScpSendDisk
import Verif.Spec.ScpSource
/-!
# SCP: the entries that a tree of files stands for
-/

namespace Spec.Scp
open Wolf (Byte Bytes)
open Wolf.Scp (View)

/-- A name that can be sent. -/
def Sendable (n : Bytes) : Prop := Plain n ∧ 10 ∉ n ∧ n.length ≤ 1005

instance (n : Bytes) : Decidable (Sendable n) := by unfold Sendable; infer_instance

/-- A time of 64 bits. -/
def Time (t : Nat) : Prop := t < 18446744073709551616

mutual
/-- The path `p` leads to a file or directory that is sent under the name `n` as these items: a file of less than 4 GiB with
its contents, or a directory, what is in it, and its end. -/
inductive Shows (v : View) (times : Bool) : Bytes → Bytes → List Item → Prop where
  | file {p n mode mt at_ data} : v p = some (.reg mode mt at_ data) → Sendable n → data.length < 4294967296 → Time mt → Time at_ →
      Shows v times p n [.file (if times then some (mt, at_) else none) (mode % 512) n data]
  | dir {p n mode mt at_ names is} : v p = some (.dir mode mt at_ names) → Sendable n → Time mt → Time at_ → Within v times p names is →
      Shows v times p n (.dir none (mode % 512) n :: (is ++ [.endDir]))
/-- The entries of the directory `p` with these names, except "." and "..". -/
inductive Within (v : View) (times : Bool) : Bytes → List Bytes → List Item → Prop where
  | nil {p} : Within v times p [] []
  | dot {p n ns is} : n = [46] ∨ n = [46, 46] → Within v times p ns is → Within v times p (n :: ns) is
  | cons {p n ns is js} : Shows v times (p ++ 47 :: n) n is → Within v times p ns js → Within v times p (n :: ns) (is ++ js)
end

/-- The last component of the path is `n`. -/
def Leads (p n : Bytes) : Prop := p = n ∨ ∃ q, p = q ++ 47 :: n

/-- The file system does not change. -/
def Still (v : View) : Wolf.Scp.CopyEv → Prop
  | .arrive _ => True
  | .step _ _ j => j.view = v

end Spec.Scp
