import Verif.Model.Keying
/-!
# Specification: keys in use

A connection is a list of events, newest first. `lastTx` and `lastRx` are the keys most recently put in use.
-/

namespace Spec.Keying
open Wolf.Keying

/-- The keys most recently put in use for sending. -/
def lastTx : List Ev → Key
  | [] => none
  | .newTx k :: _ => k
  | _ :: l => lastTx l

/-- The keys most recently put in use for receiving. -/
def lastRx : List Ev → Key
  | [] => none
  | .newRx k :: _ => k
  | _ :: l => lastRx l

/-- What is required of an event, given what happened before it.

* A packet is sent, and a received one acted on, under the keys most recently put in use in that direction.
* Keys are put in use for sending right after `SSH_MSG_NEWKEYS` (21) was sent, the last packet under the keys before. They were
  derived in an exchange earlier on, never used for sending before, and on a client the host key of that exchange had been accepted by the
  application and its signature checked.
* Keys are put in use for receiving when the peer's `SSH_MSG_NEWKEYS` is acted on, the last packet under the keys before. They are
  keys already put in use for sending, never used for receiving before. -/
def Proper (side : Side) : Ev → List Ev → Prop
  | .sent _ k, before => k = lastTx before
  | .acted _ k, before => k = lastRx before
  | .newTx k, before => ∃ n k0 rest, k = some n ∧ before = .sent 21 k0 :: rest ∧ .derived n ∈ before ∧
      (∀ m, .newTx (some m) ∈ before → m < n) ∧
      (side = .client → .accepted n ∈ before ∧ .verified n ∈ before)
  | .newRx k, before => ∃ n k0 rest, k = some n ∧ before = .acted 21 k0 :: rest ∧ .newTx (some n) ∈ before ∧
      ∀ m, .newRx (some m) ∈ before → m < n
  | _, _ => True

/-- Every event is proper. -/
def Orderly (side : Side) (log : List Ev) : Prop :=
  ∀ later e before, log = later ++ e :: before → Proper side e before

/-- An exchange was begun, by sending `SSH_MSG_KEXINIT` (20), and own `SSH_MSG_NEWKEYS` (21) is not sent yet. -/
def opened : List Ev → Bool
  | [] => false
  | .sent m _ :: l => if m = 20 then true else if m = 21 then false else opened l
  | _ :: l => opened l

/-- `SSH_MSG_KEXINIT` and `SSH_MSG_NEWKEYS` are sent in turns: one of each for every exchange. -/
def InTurns (log : List Ev) : Prop :=
  ∀ later m k before, log = later ++ .sent m k :: before →
    (m = 20 → opened before = false) ∧ (m = 21 → opened before = true)

/-- A send during which the highwater callback does not fire. -/
def CalmOut (o : Out) : Prop := o.fl.hw = 0

/-- An own `SSH_MSG_KEXINIT` during which it does not fire either. -/
structure CalmInit (e : InitEnv) : Prop where
  out : CalmOut e.out
  bundle : Firm e.out.bundle

/-- A message of the key exchange, likewise. -/
structure CalmKex (e : KexEnv) : Prop where
  sane : e.Sane
  start : CalmInit e.init.start
  disc : CalmOut e.init.disc
  dh : CalmOut e.dh.out
  nk : CalmOut e.nk.out
  nkAdj : ∀ o ∈ e.nk.adj, CalmOut o
  ext : ∀ o, e.ext = some o → CalmOut o
  adj : ∀ o ∈ e.adj, CalmOut o

/-- Nothing starts an exchange while one is under way: the application does not, and the highwater callback does not fire. -/
def calm (k : Ks) : In → Prop
  | .start e => k.self = false ∧ k.peer = false ∧ CalmInit e
  | .request e => k.self = true ∧ CalmOut e.out
  | .send _ o => CalmOut o
  | .receive _ e => CalmKex e.kex ∧ (∀ x ∈ e.more, CalmOut x.2) ∧ e.hw.hw = 0

/-- Sessions reachable that way. -/
inductive Calm (side : Side) : Ks → Prop where
  | init : Calm side (Ks.init side)
  | step {k k' : Ks} {i : In} : Calm side k → enabled k i → calm k i → step k i = some k' → Calm side k'

/-- A packet goes out, and the highwater callback does not fire. -/
def Goes (o : Out) : Prop := o.bundle = none ∧ o.fl = ⟨none, 0⟩

/-- A packet arrives and nothing goes wrong with it: it has the content of its kind (only `SSH_MSG_NEWKEYS` is empty), nothing was guessed
wrongly, the negotiated exchange is the group exchange or not as `gex` says, memory and cryptography succeed, the host key is accepted and
its signature right, and what is sent in answer goes out. -/
structure Fine (gex : Bool) (e : PktEnv) : Prop where
  io : e.io = none
  empty : e.kex.empty = decide (e.msg = 21)
  gex : e.kex.init.gex = gex
  skip : e.kex.init.skip = false
  alloc : e.kex.init.alloc = true
  initParse : e.kex.init.parse = none
  noKey : e.kex.init.start.noKey = false
  initOut : Goes e.kex.init.start.out
  hash : e.kex.init.hash = none
  stale : e.kex.init.stale = none
  parse : e.kex.parse = none
  check : e.kex.check = true
  agree : e.kex.agree = none
  sig : e.kex.sig = true
  derive : e.kex.derive = none
  crypto : e.kex.dh.crypto = none
  dh : Goes e.kex.dh.out
  nk : Goes e.kex.nk.out
  nkCipher : e.kex.nk.cipher = none
  ext : ∀ o, e.kex.ext = some o → Goes o
  cipher : e.kex.cipher = none
  adj : ∀ o ∈ e.kex.adj, Goes o
  hw : e.hw = ⟨none, 0⟩

/-- Packets received one after the other. -/
def after (progress : Nat) (k : Ks) : List PktEnv → Option Ks
  | [] => some k
  | e :: l => (receive progress k e).bind fun r => after progress r.2.2 l

/-- The messages of one exchange, as received. -/
def script (s : Side) (gex : Bool) : List Nat :=
  match s, gex with
  | .client, false => [20, 31, 21]
  | .client, true => [20, 31, 33, 21]
  | .server, false => [20, 30, 21]
  | .server, true => [20, 34, 32, 21]

end Spec.Keying
