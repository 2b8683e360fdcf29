import Verif.Model.Request
import Verif.Spec.Wire
/-!
# What a request must lead to (RFC 4254, sections 4, 5.4, 6 and 7.1; wolfssh/ssh.h:232-252)

The grammar of the requests, who may accept them, and the visible effects of an accepted one.
-/

namespace Spec.Request
open Wolf Wolf.Request Wolf.NameList Spec.Wire

/-- The payload, if the event is a packet. -/
def payload : Ev → Option Bytes
  | .packet p => some p
  | _ => none

/-- The packets among the events. -/
def packets (evs : List Ev) : List Bytes := evs.filterMap payload

/-- The calls of the application among the events. -/
def calls (evs : List Ev) : List Ev := evs.filter fun e => (payload e).isNone

/-! ## Global requests -/

/-- Name, whether a reply is wanted, what follows. -/
def globalMsg (m : Bytes) : Option (Bytes × Byte × Bytes) :=
  (string m).bind fun p => (byte p.2).map fun q => (p.1, q.1, q.2)

/-- Address to bind, port. -/
def fwdBody (m : Bytes) : Option (Bytes × Nat) :=
  (string m).bind fun p => (uint32 p.2).map fun q => (p.1, q.1)

/-- The answer of the callback to a setup that means "done": 0, or a port. -/
def SetUp (answer : Int) : Prop := answer = 0 ∨ 1024 ≤ answer

instance (a : Int) : Decidable (SetUp a) := by unfold SetUp; infer_instance

/-- The port the peer is granted. A request for port 0 needs the callback to name an unprivileged
port, any other request gets the port it asked for. -/
def granted (asked : Nat) (answer : Int) : Option Nat :=
  if asked = 0 then if 1024 ≤ answer ∧ answer ≤ 65535 then some answer.toNat else none
  else if SetUp answer then some asked else none

/-- The port granted to a forwarding request with this body, `none` if it has to be refused: no
callback, a malformed body, a refusal. -/
def grantedPort (E : GEnv) (body : Bytes) : Option Nat :=
  E.fwdCb.bind fun cb => (fwdBody body).bind fun b => granted b.2 cb.1

/-- Whether a cancellation with this body is accepted. -/
def cancelled (E : GEnv) (body : Bytes) : Bool :=
  match E.fwdCb, fwdBody body with
  | some cb, some _ => cb.1 = 0
  | _, _ => false

/-- Whether any other request is accepted. -/
def otherAccepted (E : GEnv) : Bool := E.globalReqCb = some none

/-- A reply is due and can be queued. -/
def Replies (e : Wolf.Channel.SendEnv) (want : Byte) : Prop := want ≠ 0 ∧ e.prep = none

instance (e : Wolf.Channel.SendEnv) (w : Byte) : Decidable (Replies e w) := by unfold Replies; infer_instance

/-! ## Channel requests -/

/-- Recipient channel, type, whether a reply is wanted, what follows. -/
def chanMsg (m : Bytes) : Option (Nat × Bytes × Byte × Bytes) :=
  (uint32 m).bind fun c => (string c.2).bind fun p => (byte p.2).map fun q => (c.1, p.1, q.1, q.2)

/-- The requests of RFC 4254 section 6 and OpenSSH's agent request. -/
inductive Body where
  | env
  | shell
  | exec (command : Bytes)
  | subsystem (name : Bytes)
  | pty (w h wp hp : Nat) (modes : Bytes)
  | window (w h wp hp : Nat)
  | exitStatus (status : Nat)
  | exitSignal
  | agent
  | unknown
  deriving DecidableEq, Repr

/-- Four numbers. -/
def sizes (m : Bytes) : Option (Nat × Nat × Nat × Nat × Bytes) :=
  (uint32 m).bind fun a => (uint32 a.2).bind fun b => (uint32 b.2).bind fun c =>
    (uint32 c.2).map fun d => (a.1, b.1, c.1, d.1, d.2)

/-- The types that never get a reply (RFC 4254, 6.7 and 6.10), as far as they are compiled in. -/
def silent (E : CEnv) (type : Bytes) : Bool :=
  (E.term ∧ E.shell ∧ type = asc "window-change") ∨
  ((E.term ∨ E.shell) ∧ (type = asc "exit-status" ∨ type = asc "exit-signal"))

/-- The grammar of what follows; `none` if the request is malformed. A type that is not compiled in is
unknown. -/
def body (E : CEnv) (type m : Bytes) : Option Body :=
  if type = asc "env" then (string m).bind fun p => (string p.2).map fun _ => .env
  else if type = asc "shell" then some .shell
  else if type = asc "exec" then (string m).map fun p => .exec p.1
  else if type = asc "subsystem" then (string m).map fun p => .subsystem p.1
  else if type = asc "pty-req" ∧ E.term then
    (string m).bind fun p => (sizes p.2).bind fun z => (string z.2.2.2.2).map fun q =>
      .pty z.1 z.2.1 z.2.2.1 z.2.2.2.1 q.1
  else if type = asc "window-change" ∧ E.term ∧ E.shell then
    (sizes m).map fun z => .window z.1 z.2.1 z.2.2.1 z.2.2.2.1
  else if type = asc "exit-status" ∧ (E.term ∨ E.shell) then (uint32 m).map fun p => .exitStatus p.1
  else if type = asc "exit-signal" ∧ (E.term ∨ E.shell) then
    (string m).bind fun p => (byte p.2).bind fun q => (string q.2).bind fun r =>
      (string r.2).map fun _ => .exitSignal
  else if type = asc "auth-agent-req@openssh.com" ∧ E.agent then some .agent
  else some .unknown

/-- A callback that is set has to answer 0. -/
def agrees (cb : Option Int) : Bool := cb = none ∨ cb = some 0

/-- The application has nothing against the request. -/
def allowed (E : CEnv) : Body → Bool
  | .shell => agrees E.shellCb
  | .exec _ => agrees E.execCb
  | .subsystem _ => agrees E.subsysCb
  | .pty .. => E.termResizeCb = none ∨ E.termResizeCb = some none
  | .window .. => E.termResizeCb = none ∨ E.termResizeCb = some none
  | .unknown => false
  | _ => true

/-- Well-formed, of a known type, and allowed. -/
def accepted (E : CEnv) (type m : Bytes) : Bool :=
  match body E type m with
  | some b => allowed E b
  | none => false

/-- The calls a well-formed request on channel `id` leads to. -/
def bodyCalls (E : CEnv) (id : Nat) : Body → List Ev
  | .shell => if E.shellCb = none then [] else [.shell id]
  | .exec c => if E.execCb = none then [] else [.exec id (some c)]
  | .subsystem c => if E.subsysCb = none then [] else [.subsys id (some c)]
  | .pty w h wp hp _ => if E.termResizeCb = none then [] else [.resize w h wp hp]
  | .window w h wp hp => if E.termResizeCb = none then [] else [.resize w h wp hp]
  | _ => []

/-- The session afterwards: only what the request is about changes, and only on its channel. -/
def effect (E : CEnv) (id : Nat) (s : Sess) : Body → Sess
  | .shell => { s with clientDone := true, info := fun n => if n = id then { s.info id with session := .shell } else s.info n }
  | .exec c => { s with clientDone := true, info := fun n => if n = id then { s.info id with session := .exec, command := some c } else s.info n }
  | .subsystem c => { s with clientDone := true, info := fun n => if n = id then { s.info id with session := .subsystem, command := some c } else s.info n }
  | .pty w h wp hp m => { s with width := w, height := h, widthPx := wp, heightPx := hp, modes := some m, info := fun n => if n = id then { s.info id with pty := true } else s.info n }
  | .window w h wp hp => { s with width := w, height := h, widthPx := wp, heightPx := hp }
  | .exitStatus n => { s with exitStatus := n }
  | .agent => if E.agentCb then { s with useAgent := true } else s
  | _ => s

end Spec.Request
