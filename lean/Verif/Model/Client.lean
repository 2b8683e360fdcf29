import Verif.Model.Keying
/-!
# The client's opening (src/ssh.c:823-1100, src/internal.c:8260-8292, 10476-10570, 10600-10710, 11140-11186, 11838-11872)

`wolfSSH_connect` one state at a time, on top of `Keying`. A call runs several of these steps; since an error leaves `connectState` as it is,
a call that returned and is made again is two runs of steps, the second beginning with the flush of what is pending.
-/

namespace Wolf.Client
open Wolf Wolf.Keying
open Wolf.UserAuth (Ret)

/-- The client: keying, `connectState` (wolfssh/internal.h:1606-1627), `serverState` (wolfssh/internal.h:1642-1650). -/
structure Cl where
  ks : Ks
  cs : Nat
  sv : Nat
  deriving DecidableEq, Repr

/-- `wolfSSH_new`. -/
def Cl.init : Cl := ⟨Ks.init .client, 0, 0⟩

/-- Inputs of one `DoReceive` on a client: reading, the packet's number, the key exchange, for the other messages whether its content is what it
should be, the handler's own result, the one packet it answers with, packets of the connection protocol, and the highwater check. -/
structure RxEnv where
  io : Ret
  msg : Nat
  kex : KexEnv
  ok : Bool
  ret : Ret
  out : Out
  others : List (Nat × Out)
  hw : Fl
  deriving Repr

/-- The result of a send function. -/
def sendRet (o : Out) : Ret :=
  match o.bundle with
  | some x => some x
  | none => o.fl.ret

/-- The messages 1 to 19 and 50 up in `DoPacket` (src/internal.c:12160-12360): result, new `serverState`, packets sent.
`DoServiceAccept` (src/internal.c:8261-8292), `DoUserAuthFailure` (src/internal.c:10476-10548),
`DoUserAuthSuccess` (src/internal.c:10551-10570), `DoUserAuthInfoRequest` (src/internal.c:10600-10710),
`DoChannelOpenConf` (src/internal.c:11120-11186), `DoChannelSuccess` (src/internal.c:11838-11872). What `SendUserAuthRequest`
(src/internal.c:19307) and `SendUserAuthKeyboardResponse` (src/internal.c:19191) ask of the application is part of `out.bundle`. -/
def answer (e : RxEnv) : Ret × Option Nat × List (Nat × Out) :=
  if e.msg = 6 then
    if e.ok = true then (none, some 3, []) else (some .invalidState, none, [(1, e.out)])
  else if e.msg = 51 then
    if e.ok = true then (sendRet e.out, none, [(50, e.out)]) else (e.ret, none, [])
  else if e.msg = 60 then
    if e.ok = true then (sendRet e.out, none, [(61, e.out)]) else (e.ret, none, [])
  else if e.msg = 52 then
    if e.ok = true then (none, some 4, []) else (some .badArgument, none, [])
  else if e.msg = 91 then
    if e.ok = true then (none, some 5, []) else (e.ret, none, [])
  else if e.msg = 99 then
    if e.ok = true then (none, some 6, []) else (e.ret, none, [])
  else (e.ret, none, e.others)

/-- `DoReceive` on a client. -/
def receive (c : Cl) (e : RxEnv) : Option (Ret × Cl) :=
  let a := answer e
  match Keying.receive c.cs c.ks ⟨e.io, e.msg, e.kex, a.1, a.2.2, e.hw⟩ with
  | none => none
  | some (r, d, k) =>
    let taken : Bool := e.io = none ∧ (allowed c.cs c.ks e.msg).1 = true
    let sv := if d = true then 2
      else if taken = true ∧ ¬(20 ≤ e.msg ∧ e.msg ≤ 49) then a.2.1.getD c.sv
      else c.sv
    some (r, { c with ks := k, sv := sv })

/-- A state that sends (src/ssh.c:862-870, 885-893, 941-948, 966-981, 994-1024, 1040-1084): on success the next state. -/
def sending (c : Cl) (next : Nat) (r : Ret × Ks) : Cl :=
  { c with ks := ended r.1 r.2, cs := if r.1 = none then next else c.cs }

/-- A state that waits (src/ssh.c:896-903, 951-960, 984-992, 1028-1036, 1086-1094): the next state once `serverState` is there. -/
def waiting (c : Cl) (done : Bool) (next : Nat) (e : RxEnv) : Option Cl :=
  if done = true then some { c with cs := next } else (receive c e).map (·.2)

/-- Inputs of one step of `wolfSSH_connect`. -/
structure CEnv where
  proto : Ret
  init : InitEnv
  dh : DhEnv
  out : Out
  /-- `agentEnabled`, `sendTerminalRequest` -/
  extra : Bool
  rx : RxEnv
  deriving Repr

/-- One state of `wolfSSH_connect` (src/ssh.c:860-1097). -/
def connect (c : Cl) (e : CEnv) : Option Cl :=
  match c.cs with
  | 0 => some { c with cs := if e.proto = none then 1 else 0, ks := ended e.proto c.ks }
  | 1 =>
    if c.sv < 1 then
      some { c with sv := if e.proto = none then 1 else c.sv, ks := ended e.proto c.ks }
    else some { c with cs := 2 }
  | 2 => some (sending c 3 (sendKexInit c.ks e.init))
  | 3 => waiting c (2 ≤ c.sv) 4 e.rx
  | 4 =>
    match c.ks.hs with
    | none => some { c with ks := ended (some .fatal) c.ks }
    | some h => some (sending c 5 (sendKexDh c.ks h e.dh))
  | 5 => waiting c (!c.ks.self && !c.ks.peer) 6 e.rx
  | 6 => some (sending c 7 (send 5 c.ks e.out))
  | 7 => waiting c (3 ≤ c.sv) 8 e.rx
  | 8 => some (sending c 9 (send 50 c.ks e.out))
  | 9 => waiting c (4 ≤ c.sv) 10 e.rx
  | 10 => some (sending c 11 (send 90 c.ks e.out))
  | 11 => waiting c (5 ≤ c.sv) 12 e.rx
  | 12 => some (if e.extra = true then sending c 13 (send 98 c.ks e.out) else { c with cs := 13 })
  | 13 => some (if e.extra = true then sending c 14 (send 98 c.ks e.out) else { c with cs := 14 })
  | 14 => some (sending c 15 (send 98 c.ks e.out))
  | 15 => waiting c (6 ≤ c.sv) 16 e.rx
  | _ => some c

/-- The flush `wolfSSH_connect` begins with when output is pending (src/ssh.c:831-862). -/
def flush (c : Cl) (r : Fl) : Cl :=
  let k := started r.hw c.ks
  if c.cs < 16 then
    { c with
      ks := ended r.ret k
      cs := if r.ret = none ∧ c.cs ∉ [1, 3, 5, 7, 9, 11, 15] then c.cs + 1 else c.cs }
  else c

/-- What a client's application does: `wolfSSH_connect`, a function that receives (`wolfSSH_worker`, `wolfSSH_stream_read`, ...),
`wolfSSH_TriggerKeyExchange`, a function that sends. -/
inductive In where
  | connect (e : CEnv)
  | flush (r : Fl)
  | receive (e : RxEnv)
  | start (e : InitEnv)
  | send (m : Nat) (o : Out)
  deriving Repr

/-- One step; `none` is undefined behaviour. -/
def step (c : Cl) : In → Option Cl
  | .connect e => connect c e
  | .flush r => some (flush c r)
  | .receive e => (receive c e).map (·.2)
  | .start e => some { c with ks := ended (sendKexInit c.ks e).1 (sendKexInit c.ks e).2 }
  | .send m o => some { c with ks := (send m c.ks o).2 }

/-- The messages API functions and the handlers of the connection protocol send: not those of the key exchange, nor those
`wolfSSH_connect` and the authentication handlers send. -/
def Plain (m : Nat) : Prop := (m < 20 ∨ 49 < m) ∧ m ≠ 5 ∧ m ≠ 50 ∧ m ≠ 61

/-- What can be received. -/
structure RxEnv.Sane (e : RxEnv) : Prop where
  kex : e.kex.Sane
  quiet : e.kex.nk.cipher = none ∨ e.hw.hw = 0
  others : ∀ x ∈ e.others, Plain x.1

/-- Which steps there are: the application stops at an error that ends the session. -/
def enabled (c : Cl) : In → Prop
  | .connect e => c.ks.dead = false ∧ e.rx.Sane
  | .flush _ => c.ks.dead = false
  | .receive e => c.ks.dead = false ∧ e.Sane
  | .start _ => c.ks.dead = false
  | .send m _ => c.ks.dead = false ∧ Plain m

/-- Clients reachable from `wolfSSH_new`. -/
inductive Reach : Cl → Prop where
  | init : Reach Cl.init
  | step {c c' : Cl} {i : In} : Reach c → enabled c i → step c i = some c' → Reach c'

end Wolf.Client
