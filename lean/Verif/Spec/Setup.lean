import Verif.Model.Setup
/-!
# What a client sends to set up its session (RFC 4254, sections 5.1 and 6)
-/

namespace Spec.Setup
open Wolf.Setup

/-- The messages of a client that wants these things: each once, in this order. -/
def expected (c : Cfg) : List Msg :=
  [.open] ++ (if c.agent then [.agent] else []) ++ (if c.pty then [.pty] else []) ++ [.session]

/-- A server that answers the requests that want an answer, in order: `pty` is its answer to the request for
a terminal, `session` the one to the request for a shell, command or subsystem. Not all answers need to have arrived. -/
def Answered (c : Cfg) (pty session : Bool) (answers : List Bool) : Prop :=
  answers <+: (if c.pty then [pty] else []) ++ [session]

end Spec.Setup
