import Verif.Model.ServerSetup
/-!
# What a server sends of its own accord to set up a session (RFC 4253 sections 4.2, 7.1, 10; RFC 4252 section 5.1)
-/

namespace Spec.ServerSetup
open Wolf.ServerSetup

/-- Its version, its algorithms, the service, the success of the authentication: each once, in this order. -/
def expected : List Msg := [.version, .kexinit, .service, .success]

/-- No request for an agent channel met a transport that took only part of it. -/
def AgentWritten (es : List Env) : Prop := ∀ e ∈ es, e.out 9 ≠ .blocked

/-- Nothing that was received has ended a key exchange. -/
def StillKeying (es : List Env) : Prop := ∀ e ∈ es, ∀ rx ∈ e.rx, ∀ c a x p st, rx ≠ .got c false a x p st

end Spec.ServerSetup
