import Verif.Model.IdentCert
import Verif.Spec.IdentKey
/-!
# Specification: the type of a certificate

Of the model only the types and the answers are used.
-/

namespace Spec.IdentCert
open Wolf.IdentKey (Id)
open Wolf.IdentCert (Env Ev)

/-- The certificate can be decoded, there is memory, and its key, as a public key, is of this type. -/
def HasKey (e : Env) (i : Id) : Prop :=
  (e.small = true → e.allocCert = true) ∧ e.parse = true ∧ (∃ n, e.len = some n) ∧ e.allocKey = true ∧ e.get = true ∧
    e.key.alloc = true ∧ Spec.IdentKey.Decides { e.key with isPrivate := false } [.rsa, .ecc, .mldsa, .ed] (.key i)

/-- The types with an algorithm for certificates: all of the build but Ed25519. -/
def Supported (e : Env) (i : Id) : Prop := i ≠ .ed25519 ∧ e.x509 i = true

/-- The decoder: its memory is there, it is initialised; the buffer of the key and its size. -/
structure Mem where
  room : Bool
  live : Bool
  key : Option Nat
  deriving DecidableEq, Repr

/-- One step. `none`: something is used that is not there, freed twice, or written outside of. -/
def step (m : Mem) : Ev → Option Mem
  | .alloc => if m.room then none else some { m with room := true }
  | .init => if m.room = true ∧ m.live = false then some { m with live := true } else none
  | .free => if m.room = true ∧ m.live = true then some { m with live := false } else none
  | .release => if m.room = true ∧ m.live = false then some { m with room := false } else none
  | .keyAlloc n => if m.live = true ∧ m.key = none then some { m with key := some n } else none
  | .keyFill n => m.key.bind fun k => if n ≤ k then some m else none
  | .keyFree => if m.key.isSome then some { m with key := none } else none

/-- All steps. -/
def after (m : Mem) : List Ev → Option Mem
  | [] => some m
  | e :: es => (step m e).bind fun m => after m es

end Spec.IdentCert
