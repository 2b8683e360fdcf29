import Verif.Spec.Keying
import Verif.Model.Client
/-!
# Specification: what a client tells only a checked server
-/

namespace Spec.Client
open Wolf.Keying Spec.Keying

/-- The messages by which a client asks for the user to be authenticated: the service request (5), the authentication request (50), with
user name and password or signature, and the answers to prompts (61). -/
def Credential (m : Nat) : Prop := m = 5 ∨ m = 50 ∨ m = 61

/-- Such a message goes out under keys of an exchange whose host key the application accepted and whose signature was checked, and after
the server has shown, by its `SSH_MSG_NEWKEYS`, that it put the keys of such an exchange in use as well. -/
def Guarded (log : List Ev) : Prop :=
  ∀ later m k before, log = later ++ .sent m k :: before → Credential m →
    (∃ n, k = some n ∧ .accepted n ∈ before ∧ .verified n ∈ before) ∧
    ∃ n, lastRx before = some n ∧ .accepted n ∈ before ∧ .verified n ∈ before

open Wolf.Client in
/-- What can become of a client: any calls, any packets. -/
inductive Later (c : Cl) : Cl → Prop where
  | now : Later c c
  | step {c1 c2 : Cl} {i : Wolf.Client.In} : Later c c1 → Wolf.Client.step c1 i = some c2 → Later c c2

end Spec.Client
