import Verif.Model.Session
import Verif.Model.Kex
/-!
# Keying: which keys are in use, on either side (src/internal.c:5271-5680, 5895-5945, 7221-7625,
7631-7760, 7763-8010, 12156-12300, 13324-13486, 15584-16205, 16207-16690)

The session is reduced to the fields that decide when keys change: `isKeying`, `handshake` with `expectMsgId`, `kexId` (as
far as it is group exchange or not), `ignoreNextKexMsg` and whether its keys were derived, and the keys installed in the two
directions. Keys are named by the number of the exchange that derived them. What the cryptography, the allocator, the socket and
the parsing of a message answer is given with each call (the parsing itself is modelled in `Kex`, `Gex` and `KexDh`).

Simplifications: a direction whose `CipherSetKey` failed counts as a direction without keys. `PurgePacket` is left out: a
packet counts as sent once it is bundled. The highwater callback is the default one, `wsHighwater` (src/internal.c:544-560), which starts a key
exchange; how often it fires is given (when it fires is the subject of C30).
-/

namespace Wolf.Keying
open Wolf Wolf.UserAuth Wolf.MsgFilter

/-- `ctx->side`. -/
inductive Side where
  | client | server
  deriving DecidableEq, Repr

/-- The keys of a direction: those of the n-th exchange, or none. -/
abbrev Key := Option Nat

/-- `HandshakeInfo` (wolfssh/internal.h): `expectMsgId`, `kexId == ID_DH_GEX_SHA256`, `ignoreNextKexMsg`, and the exchange that
derived `keys` and `peerKeys` (`none`: still zero). -/
structure Hs where
  expect : Nat
  gex : Bool
  skip : Bool
  keys : Key
  deriving DecidableEq, Repr

/-- `HandshakeInfoNew` (src/internal.c:623-647): all zero. -/
def Hs.fresh : Hs := ⟨0, false, false, none⟩

/-- What happens on a connection (ghost). -/
inductive Ev where
  /-- a packet was queued, protected with these keys -/
  | sent (msg : Nat) (key : Key)
  /-- a received packet, protected with these keys, was acted on -/
  | acted (msg : Nat) (key : Key)
  /-- the application's callback accepted the host key of exchange `ex` -/
  | accepted (ex : Nat)
  /-- the signature of that host key over the exchange hash of exchange `ex` was checked -/
  | verified (ex : Nat)
  /-- keys were derived in exchange `ex` -/
  | derived (ex : Nat)
  /-- keys were put in use for sending -/
  | newTx (key : Key)
  /-- keys were put in use for receiving -/
  | newRx (key : Key)
  deriving DecidableEq, Repr

/-- The session; `log` is newest first. `dead`: a call returned a code that ends the session. -/
structure Ks where
  side : Side
  self : Bool
  peer : Bool
  hs : Option Hs
  tx : Key
  rx : Key
  gen : Nat
  log : List Ev
  dead : Bool
  deriving DecidableEq, Repr

/-- `wolfSSH_new` (src/internal.c:1558-1690), which allocates the first `handshake`. -/
def Ks.init (side : Side) : Ks := ⟨side, false, false, some .fresh, none, none, 0, [], false⟩

/-- Record an event. -/
def Ks.note (k : Ks) (e : Ev) : Ks := { k with log := e :: k.log }

/-- The number of the exchange under way. -/
def Ks.ex (k : Ks) : Nat := k.gen + 1

/-- `wolfSSH_SendPacket` (src/internal.c:4261-4317): result, and how many `SSH_MSG_KEXINIT` its `HighwaterCheck` queued. -/
structure Fl where
  ret : Ret
  hw : Nat
  deriving Repr

/-- `wsHighwater` having queued `n` `SSH_MSG_KEXINIT` (src/internal.c:544-560, ssh.c:1165-1179, 13347-13357). -/
def started : Nat → Ks → Ks
  | 0, k => k
  | n + 1, k => started n { k.note (.sent 20 k.tx) with self := true, hs := some (k.hs.getD .fresh) }

/-- A send function: `PreparePacket` to `BundlePacket`, then `wolfSSH_SendPacket`. -/
structure Out where
  bundle : Ret
  fl : Fl
  deriving Repr

/-- A send function that keeps nothing. -/
def send (m : Nat) (k : Ks) (o : Out) : Ret × Ks :=
  match o.bundle with
  | some e => (some e, k)
  | none => (o.fl.ret, started o.fl.hw (k.note (.sent m k.tx)))

/-- A send function of the key exchange that sets `expectMsgId` once the packet is bundled (src/internal.c:16268-16275,
16368-16375, 16673-16677). -/
def sendExpect (m x : Nat) (k : Ks) (h : Hs) (o : Out) : Ret × Ks :=
  match o.bundle with
  | some e => (some e, k)
  | none => (o.fl.ret, started o.fl.hw { k.note (.sent m k.tx) with hs := some { h with expect := x } })

/-- Inputs of `SendKexInit`: `privateKeyCount == 0`, whether `HandshakeInfoNew` succeeds, the packet (with name lists and cookie). -/
structure InitEnv where
  noKey : Bool
  alloc : Bool
  out : Out
  deriving Repr

/-- `SendKexInit` (src/internal.c:13324-13486). -/
def sendKexInit (k : Ks) (e : InitEnv) : Ret × Ks :=
  if k.side = .server ∧ e.noKey = true then (some .badArgument, k)
  else if k.hs.isNone = true ∧ e.alloc = false then (some .memory, { k with self := true })
  else send 20 { k with self := true, hs := some (k.hs.getD .fresh) } e.out

/-- Inputs of `DoKexInit`: memory; the negotiation with `kexId` and `ignoreNextKexMsg` as it leaves them; the own `SSH_MSG_KEXINIT`;
the exchange hash; `ssh->error` as it stands at the end; the disconnect message. -/
structure KexInitEnv where
  alloc : Bool
  parse : Ret
  gex : Bool
  skip : Bool
  start : InitEnv
  hash : Ret
  stale : Ret
  disc : Out
  deriving Repr

/-- `IsKexMatchError` (src/internal.c:5257-5261). -/
def isMatchError : Ret → Bool
  | some e => Kex.isKexMatchError e
  | none => false

/-- The answer to a failed negotiation (src/internal.c:5672-5675). -/
def kexInitEnd (e : KexInitEnv) (r : Ret) (k : Ks) : Ret × Ks :=
  if isMatchError r = true then (r, (send 1 k e.disc).2) else (r, k)

/-- The own `SSH_MSG_KEXINIT`, unless sent already (src/internal.c:5600-5604). -/
def ownInit (k : Ks) (e : InitEnv) : Ret × Ks :=
  if k.self = true then (none, k) else sendKexInit k e

/-- The own `SSH_MSG_KEXINIT` and the exchange hash (src/internal.c:5600-5671). -/
def kexInitReply (k : Ks) (e : KexInitEnv) : Ret × Bool × Ks :=
  let rk := ownInit k e.start
  if rk.1 = none ∨ rk.1 = some .wantWrite then
    match e.hash with
    | some x => (some x, false, rk.2)
    | none => (e.stale, true, rk.2)
  else (rk.1, false, rk.2)

/-- The handshake of the peer's `SSH_MSG_KEXINIT` (src/internal.c:5317-5326, 5369, 5566). -/
def Ks.taken (k : Ks) (gex skip : Bool) : Ks :=
  { k with peer := true, hs := some { k.hs.getD .fresh with gex := gex, skip := skip } }

/-- `DoKexInit` (src/internal.c:5273-5680): result, whether `clientState`/`serverState` became `KEXINIT_DONE`, session. -/
def doKexInit (k : Ks) (e : KexInitEnv) : Ret × Bool × Ks :=
  if k.peer = true then (some .invalidState, false, k)
  else if k.hs.isNone = true ∧ e.alloc = false then (some .memory, false, { k with peer := true })
  else
    let k := k.taken e.gex e.skip
    match e.parse with
    | some x =>
      let r := kexInitEnd e (some x) k
      (r.1, false, r.2)
    | none =>
      let r := kexInitReply k e
      let r' := kexInitEnd e r.1 r.2.2
      (r'.1, r.2.1, r'.2)

/-- Inputs of `SendKexDhInit` and `SendKexDhGexRequest`: the ephemeral key, the packet. -/
structure DhEnv where
  crypto : Ret
  out : Out
  deriving Repr

/-- `SendKexDhInit` (src/internal.c:16384-16690). -/
def sendKexDhInit (k : Ks) (h : Hs) (e : DhEnv) : Ret × Ks :=
  match e.crypto with
  | some x => (some x, k)
  | none => if h.gex = true then sendExpect 32 33 k h e.out else sendExpect 30 31 k h e.out

/-- `SendKexDhGexRequest` or `SendKexDhInit`, by `kexId` (src/ssh.c:909-925, src/internal.c:12201-12208). -/
def sendKexDh (k : Ks) (h : Hs) (e : DhEnv) : Ret × Ks :=
  if h.gex = true then sendExpect 34 31 k h e.out else sendKexDhInit k h e

/-- `SendPendingChannelWindowAdjust` (src/internal.c:7677-7710) with `ChannelCreditWindow` (src/internal.c:7631-7672): one send for
each channel with credit parked, none while keying. -/
def adjust : List Out → Ks → Ret × Ks
  | [], k => (none, k)
  | o :: os, k =>
    if k.self = true ∨ k.peer = true then (none, k)
    else
      let r := send 93 k o
      let r' := adjust os r.2
      (if r.1 = none then r'.1 else r.1, r'.2)

/-- Inputs of `SendNewKeys`. -/
structure NkEnv where
  out : Out
  cipher : Ret
  adj : List Out
  deriving Repr

/-- `SendNewKeys` (src/internal.c:16134-16205) with the handshake `h`. -/
def sendNewKeys (k : Ks) (h : Hs) (e : NkEnv) : Ret × Ks :=
  match e.out.bundle with
  | some x => (some x, k)
  | none =>
    let k := k.note (.sent 21 k.tx)
    match e.cipher with
    | some x => (some x, { k with tx := none })
    | none =>
      let k := started e.out.fl.hw { k.note (.newTx h.keys) with tx := h.keys }
      let r := adjust e.adj { k with self := false }
      (if e.out.fl.ret = none then r.1 else e.out.fl.ret, r.2)

/-- Inputs of the handling of one key exchange message. -/
structure KexEnv where
  /-- the payload is empty -/
  empty : Bool
  init : KexInitEnv
  /-- parsing and memory, before anything is decided -/
  parse : Ret
  /-- `publicKeyCheckCb` is set and accepts -/
  check : Bool
  /-- key import, key agreement, exchange hash; on a server also the signature -/
  agree : Ret
  /-- the signature verifies -/
  sig : Bool
  /-- `GenerateKeys` -/
  derive : Ret
  dh : DhEnv
  nk : NkEnv
  /-- `SendExtInfo`, if it is to be sent -/
  ext : Option Out
  /-- `CipherSetKey` for the peer's keys -/
  cipher : Ret
  adj : List Out
  deriving Repr

/-- `DoNewKeys` (src/internal.c:7713-7760). -/
def doNewKeys (k : Ks) (e : KexEnv) : Ret × Ks :=
  match k.hs with
  | none => (some .badArgument, k)
  | some h =>
    if e.empty = false then (some .badArgument, k)
    else if k.self = true then (some .invalidState, k)
    else
      match e.cipher with
      | some x => (some x, { k with rx := none })
      | none => adjust e.adj { k.note (.newRx h.keys) with rx := h.keys, peer := false, hs := none }

/-- The keys of the exchange are derived: `GenerateKeys` (src/internal.c:3265-3420); the client then waits for `SSH_MSG_NEWKEYS`
(src/internal.c:7590-7600), the server once it has sent its answer. -/
def Ks.derive (k : Ks) (h : Hs) : Ks := { k.note (.derived k.ex) with gen := k.ex, hs := some h }

/-- `DoKexDhReply` (src/internal.c:7221-7625). -/
def doKexDhReply (k : Ks) (h : Hs) (e : KexEnv) : Ret × Ks :=
  if e.empty = true then (some .badArgument, k)
  else if h.skip = true then (none, { k with hs := some { h with skip := false } })
  else
    match e.parse with
    | some x => (some x, k)
    | none =>
      if e.check = false then (some .pubkeyRejected, k)
      else
        let k := k.note (.accepted k.ex)
        match e.agree with
        | some x => (some x, k)
        | none =>
          if e.sig = false then (some .sigE, k)
          else
            let k := k.note (.verified k.ex)
            match e.derive with
            | some x => (some x, k)
            | none =>
              let h := { h with keys := some k.ex, expect := 21 }
              sendNewKeys (k.derive h) h e.nk

/-- `DoKexDhGexGroup` (src/internal.c:7944-8010). -/
def doGexGroup (k : Ks) (h : Hs) (e : KexEnv) : Ret × Ks :=
  if e.empty = true then (some .badArgument, k)
  else if h.skip = true then (none, { k with hs := some { h with skip := false } })
  else
    match e.parse with
    | some x => (some x, k)
    | none => sendKexDhInit k h e.dh

/-- `DoKexDhGexRequest` (src/internal.c:7767-7805) with `SendKexDhGexGroup` (src/internal.c:16281-16380). -/
def doGexRequest (k : Ks) (h : Hs) (e : KexEnv) : Ret × Ks :=
  if e.empty = true then (some .badArgument, k)
  else if h.skip = true then (none, { k with hs := some { h with skip := false } })
  else
    match e.parse with
    | some x => (some x, k)
    | none => sendExpect 31 32 k h e.dh.out

/-- `SendKexDhReply` (src/internal.c:15584-16130): agreement and signature, keys, packet, `SendNewKeys`, `SendExtInfo`. -/
def sendKexDhReply (k : Ks) (h : Hs) (e : KexEnv) : Ret × Ks :=
  match e.agree with
  | some x => (some x, k)
  | none =>
    match e.derive with
    | some x => (some x, k)
    | none =>
      let h1 := { h with keys := some k.ex }
      let k := k.derive h1
      match e.dh.out.bundle with
      | some x => (some x, k)
      | none =>
        let h2 := { h1 with expect := 21 }
        let r := sendNewKeys { k.note (.sent (if h.gex = true then 33 else 31) k.tx) with hs := some h2 } h2 e.nk
        match r.1, e.ext with
        | none, some o => send 7 r.2 o
        | _, _ => r

/-- `DoKexDhInit` (src/internal.c:5895-5943). -/
def doKexDhInit (k : Ks) (h : Hs) (e : KexEnv) : Ret × Ks :=
  if e.empty = true then (some .badArgument, k)
  else if h.skip = true then (none, { k with hs := some { h with skip := false } })
  else
    match e.parse with
    | some x => (some x, k)
    | none => sendKexDhReply k h e

/-- `CONNECT_SERVER_CHANNEL_REQUEST_DONE` (wolfssh/internal.h:1606-1627). -/
def CONNECTED : Nat := 16

/-- The case `MSGID_KEXINIT` of `DoPacket` (src/internal.c:12193-12210); `progress` is `connectState`. `none`: the NULL
`handshake` is dereferenced. -/
def kexInitCase (progress : Nat) (k : Ks) (e : KexEnv) : Option (Ret × Bool × Ks) :=
  let r := doKexInit k e.init
  let k' := r.2.2
  if isMatchError r.1 = false ∧ (k'.self = true ∨ k'.peer = true) ∧ k'.side = .client ∧ progress = CONNECTED then
    match k'.hs with
    | none => none
    | some h => some (r.1, r.2.1, (sendKexDh k' h e.dh).2)
  else some r

/-- The cases 20 to 49 of `DoPacket` (src/internal.c:12190-12253, 12355-12361). -/
def kexCase (progress : Nat) (k : Ks) (m : Nat) (e : KexEnv) : Option (Ret × Bool × Ks) :=
  if m = 20 then kexInitCase progress k e
  else if m = 21 then some ((doNewKeys k e).1, false, (doNewKeys k e).2)
  else if m = 30 ∨ m = 31 ∨ m = 32 ∨ m = 33 ∨ m = 34 then
    match k.hs with
    | none => some (some (if m = 31 then .memory else .badArgument), false, k)
    | some h =>
      let r := if m = 30 ∨ m = 32 then doKexDhInit k h e
        else if m = 34 then doGexRequest k h e
        else if m = 31 ∧ h.gex = true then doGexGroup k h e
        else doKexDhReply k h e
      some (r.1, false, r.2)
  else
    let r := send 3 k e.dh.out
    some (r.1, false, r.2)

/-- `IsMessageAllowed` (src/internal.c:912-927). -/
def verdict (side : Side) (f : FState) (m : Nat) : Bool × Option Nat :=
  match side with
  | .client => isMessageAllowedClient f m
  | .server => isMessageAllowedServer f m

/-- `IsMessageAllowed` on this session. -/
def allowed (progress : Nat) (k : Ks) (m : Nat) : Bool × Ks :=
  let r := verdict k.side ⟨progress, k.peer, k.hs.map (·.expect)⟩ m
  (r.1, { k with hs := k.hs.map fun h => { h with expect := r.2.getD h.expect } })

/-- The sends a handler of another message makes, one after the other. -/
def sends : List (Nat × Out) → Ks → Ks
  | [], k => k
  | (m, o) :: l, k => sends l (send m k o).2

/-- Inputs of one `DoReceive`: result of reading and authenticating the packet; the packet's number; the key exchange handlers;
the other handlers, by their result and the packets they queue; the `HighwaterCheck` at the end. -/
structure PktEnv where
  io : Ret
  msg : Nat
  kex : KexEnv
  gen : Ret
  more : List (Nat × Out)
  hw : Fl
  deriving Repr

/-- The end of `DoPacket` (src/internal.c:12363-12398) and of `DoReceive` (src/internal.c:12919-12928): the highwater check, and
whether the code ends the session. -/
def packetEnd (r : Ret) (k : Ks) (hw : Fl) : Ret × Ks :=
  let r' := if r = none then hw.ret else r
  let k' := started hw.hw k
  (r', { k' with dead := k'.dead || !Session.usable r' })

/-- `DoReceive` (src/internal.c:12811-12955) with `DoPacket` (src/internal.c:12109-12400), for the key exchange messages, and for
all others by their effect: result, whether `clientState`/`serverState` became `KEXINIT_DONE`, session. `none`: undefined behaviour. -/
def receive (progress : Nat) (k : Ks) (e : PktEnv) : Option (Ret × Bool × Ks) :=
  match e.io with
  | some x => some (some x, false, { k with dead := k.dead || !Session.usable (some x) })
  | none =>
    match allowed progress k e.msg with
    | (false, k) => some (some .msgNotAllowed, false, { k with dead := true })
    | (true, k) =>
      let k := k.note (.acted e.msg k.rx)
      if 20 ≤ e.msg ∧ e.msg ≤ 49 then
        match kexCase progress k e.msg e.kex with
        | none => none
        | some (r, d, k) => some ((packetEnd r k e.hw).1, d, (packetEnd r k e.hw).2)
      else some ((packetEnd e.gen (sends e.more k) e.hw).1, false, (packetEnd e.gen (sends e.more k) e.hw).2)

/-- Inputs of the machine: the places that call `SendKexInit` (src/ssh.c:633, 888, 1174); the first
`SendKexDhInit`/`SendKexDhGexRequest` of a client (src/ssh.c:904-925); any other packet an API function queues; one `DoReceive`, with
`acceptState`/`connectState`. -/
inductive In where
  | start (e : InitEnv)
  | request (e : DhEnv)
  | send (m : Nat) (o : Out)
  | receive (progress : Nat) (e : PktEnv)
  deriving Repr

/-- A call that returns `r`. -/
def ended (r : Ret) (k : Ks) : Ks := { k with dead := k.dead || !Session.usable r }

/-- One step; `none` is undefined behaviour. -/
def step (k : Ks) : In → Option Ks
  | .start e => some (ended (sendKexInit k e).1 (sendKexInit k e).2)
  | .request e =>
    match k.hs with
    | none => some k
    | some h => some (ended (sendKexDh k h e).1 (sendKexDh k h e).2)
  | .send m o => some (send m k o).2
  | .receive p e => (receive p k e).map (·.2.2)

/-- A result of cryptography, memory or parsing: success, or a code that ends the session. -/
def Firm (r : Ret) : Prop := r = none ∨ Session.usable r = false

/-- The results a `KexEnv` can hold. -/
structure KexEnv.Sane (e : KexEnv) : Prop where
  parse : Firm e.parse
  agree : Firm e.agree
  derive : Firm e.derive
  cipher : Firm e.cipher
  initParse : Firm e.init.parse
  bundle : Firm e.dh.out.bundle
  nkBundle : Firm e.nk.out.bundle
  nkCipher : Firm e.nk.cipher

/-- If the cipher library refuses the new keys for sending, the session is over and the highwater callback, if it fires on the same
packet, is left out: what its packet would be protected with is up to the library. -/
def PktEnv.Quiet (e : PktEnv) : Prop := e.kex.nk.cipher = none ∨ e.hw.hw = 0

/-- Which steps there are: outside of the key exchange handlers no key exchange message is sent, only a client makes the opening
request, and the application stops at an error that ends the session. -/
def enabled (k : Ks) : In → Prop
  | .start _ => k.dead = false
  | .request _ => k.dead = false ∧ k.side = .client
  | .send m _ => k.dead = false ∧ (m < 20 ∨ 49 < m)
  | .receive _ e => k.dead = false ∧ e.kex.Sane ∧ e.Quiet ∧ ∀ x ∈ e.more, x.1 < 20 ∨ 49 < x.1

/-- Sessions reachable from `wolfSSH_new`. -/
inductive Reach (side : Side) : Ks → Prop where
  | init : Reach side (Ks.init side)
  | step {k k' : Ks} {i : In} : Reach side k → enabled k i → step k i = some k' → Reach side k'

end Wolf.Keying
