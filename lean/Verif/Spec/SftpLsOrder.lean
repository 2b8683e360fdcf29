import Verif.Spec.SftpLs
/-!
# The order of the requests of a listing
-/

namespace Spec.SftpLs

/-- What a client asks to list `dir`, up to some point: REALPATH, OPENDIR, READDIR and CLOSE, the last two as often as it likes but
with one handle. -/
def Listing (dir : List UInt8) (l : List Request) : Prop :=
  ∃ name h k m, l <+: .realpath dir :: .opendir name :: (List.replicate k (.readdir h) ++ List.replicate m (.close h))

/-- Requests with their ids, as bytes. -/
def packets (l : List (Nat × Request)) : List UInt8 := l.flatMap fun r => r.2.packet r.1

/-- What was handed to the channel. -/
def outOf : Wolf.SftpLs.Call → List UInt8
  | .at c _ => c.out
  | .done c _ => c.out
  | .ub => []

end Spec.SftpLs
