import Verif.Model.UserAuth
import Verif.Spec.Wire
import Verif.Spec.OsshJudge
/-!
# What a server session is supposed to guarantee about authentication

Stated over the observable events of a session (`Wolf.UserAuth.Ev`): what the application was
asked and answered, which signatures verified over which bytes, what was sent.
-/

namespace Spec.Auth
open Wolf.UserAuth

/-- Some credential of `user` was accepted in the session `sid`: the application accepted a
password or keyboard answers, or it accepted a public key and the signature of the same request
verified over the session identifier, the message number of a user authentication request and
further bytes (RFC 4252 section 7). -/
def accepted (sid user : List UInt8) (log : List Ev) : Prop :=
  (∃ pw, Ev.asked user (.password pw) .success ∈ log) ∨
  (∃ rs, Ev.asked user (.keyboard rs) .success ∈ log) ∨
  (∃ algo key sig cert rest, Ev.asked user (.publicKey algo key true sig cert) .success ∈ log ∧
    Ev.sigChecked user algo key sig (Spec.Wire.encString sid ++ [50] ++ rest) true ∈ log)

/-- What the application is asked about a request that offers `key` under the name `algo`: the key
itself, or, when it is a certificate the server may go by (`valid` is the judgement of the signature
schemes on the authority's signature; `none` if certificates are not supported), the key it
certifies together with what the certificate says. -/
def asks (valid : Option (Spec.OsshCert.Check → List UInt8 → Bool)) (algo key algo' key' : List UInt8)
    (cert : Option Wolf.OsshCert.Shown) : Prop :=
  (cert = none ∧ algo' = algo ∧ key' = key) ∨
  ∃ v alg c opts sh, valid = some v ∧ cert = some sh ∧ Spec.OsshCert.WellFormed alg c ∧
    key = Spec.OsshCert.encode c ∧ Spec.OsshCert.Acceptable v c opts ∧
    key' = Spec.OsshCert.plainKey alg c ∧
    algo' ∈ Spec.OsshCert.keyName alg :: Spec.OsshCert.sigNames alg ∧
    Spec.OsshCert.shows alg c opts algo' sh

/-- Number of failure replies in a log. -/
def failures (log : List Ev) : Nat :=
  (log.filter (fun e => match e with | .sentFailure _ => true | _ => false)).length

/-- Number of authentication requests acted upon. -/
def requests (log : List Ev) : Nat :=
  (log.filter (fun e => e == .acted 50)).length

/-- In every split of the log, an event satisfying `p` has one satisfying `q` before it. -/
def precedes (q p : Ev → Prop) (log : List Ev) : Prop :=
  ∀ l₁ e l₂, log = l₁ ++ e :: l₂ → p e → ∃ e' ∈ l₁, q e'

end Spec.Auth
