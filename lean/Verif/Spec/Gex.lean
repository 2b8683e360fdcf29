import Verif.Model.Gex
import Verif.Spec.Wire
/-!
# Which group a group exchange may use (RFC 4419, RFC 8270)
-/

namespace Spec.Gex
open Wolf

/-- The number `p` has exactly `n` bits. -/
def HasBits (p n : Nat) : Prop := 1 ≤ n ∧ 2 ^ (n - 1) ≤ p ∧ p < 2 ^ n

/-- A size the server may use: in the client's range, not below 2048, and such that the secret and the public value
fit the buffers of the build. -/
def Allowed (o : Wolf.Gex.Build) (min max bits : Nat) : Prop :=
  min ≤ bits ∧ 2048 ≤ bits ∧ bits ≤ max ∧ bits ≤ 8 * o.keyBytes ∧ bits ≤ 8 * (o.fBytes - 1)

/-- What a client may take: size within the range asked for and not below 2048, `p` and `(p - 1) / 2` pass
the primality test, `p` is odd, the generator is neither 0, 1 nor p - 1 or beyond. -/
structure Acceptable (isPrime : Nat → Bool) (min max p g : Nat) : Prop where
  size : ∃ n, HasBits p n ∧ min ≤ n ∧ 2048 ≤ n ∧ n ≤ max
  odd : p % 2 = 1
  prime : isPrime p = true
  safe : isPrime ((p - 1) / 2) = true
  generator : 2 ≤ g ∧ g + 2 ≤ p

end Spec.Gex
