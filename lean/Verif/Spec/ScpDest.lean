import Verif.Spec.Path
/-!
# Where a copy goes
-/

namespace Spec.Scp
open Spec.Path

/-- The directory with the components `a`, with a delimiter at the end. -/
def below (a : List (List UInt8)) : List UInt8 := if a = [] then [47] else render a ++ [47]

end Spec.Scp
