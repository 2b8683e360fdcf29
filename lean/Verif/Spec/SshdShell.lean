import Verif.Model.SshdShell
/-!
# What relaying a shell means

The bytes of one side reach the other in their order, and none is left out.
-/

namespace Spec.SshdShell
open Wolf (Byte Bytes)
open Wolf.SshdShell

/-- The last of the output goes out whole. -/
def Flushed (sends : List (Send × Bool)) (left : Bytes) : Prop := flushOut flushTries sends (left.take bufSz) = left.take bufSz

/-- The child takes all it is given, or the write fails. -/
def Whole (e : Env) : Prop := e.readFails = false ∧ ∀ n, e.toChild = some n → bufSz ≤ n + 1

/-- A turn after the child has gone: everything is ready and every send succeeds. -/
def gone : Env := { outEnd := true, errEnd := true, running := false, running2 := false }

/-- A turn in which nothing arrives for the shell's channel. -/
def Quiet (e : Env) : Prop := e.work = .wantRead ∨ e.work = .success false ∨ e.work = .other

end Spec.SshdShell
