import Verif.Model.Receive
import Verif.Spec.Packet
/-!
# Receiving packets: what is authentic, what a call may leave behind
-/

namespace Spec.Receive
open Wolf Wolf.Packet Wolf.Receive Spec.Packet

/-- An integrity check that passed is a fact about the primitives: the MAC over sequence number and
packet is the one received; or the AEAD cipher, under the key, nonce, and with the length field as
associated data, opened the cipher text and tag received to that packet. -/
def Genuine (P : Prims) : Event → Prop
  | .verified s seq packet mac => MacOf P s seq packet mac
  | .opened s _ packet ct tag => ∃ st iv0, P.setKey s.encId false iv0 s.encKey = some st ∧
      P.gcmOpen s.encId st s.iv ct tag (packet.take 4) = some (packet.drop 4)
  | _ => False

/-- The check was of `packet` under algorithms and keys `s` (which may have moved on to the next
nonce) and sequence number `seq`. -/
def CheckOf (s : Suite) (seq : Nat) (packet : Bytes) : Event → Prop
  | .verified s' seq' packet' _ => s' = s ∧ seq' = seq ∧ packet' = packet
  | .opened s' seq' packet' _ _ => s' = { s with iv := s'.iv } ∧ seq' = seq ∧ packet' = packet
  | _ => False

/-- Every message acted upon is exactly the contents of a packet whose integrity check passed under
the same keys and sequence number; since that check the only thing that happened is that the same
message was put off and tried again. -/
def ActsOnChecked (P : Prims) (log : List Event) : Prop :=
  ∀ pre s seq msg payload post, log = pre ++ .acted s seq msg payload :: post →
    ∃ before check since pad, pre = before ++ check :: since ∧
      Genuine P check ∧ CheckOf s seq (framed (msg :: payload) pad) check ∧ 4 ≤ pad.length ∧
      ∀ e ∈ since, e = .acted s seq msg payload

/-- The sequence number an event is about. -/
def seqOf : Event → Option Nat
  | .verified _ n _ _ => some n
  | .opened _ n _ _ _ => some n
  | .acted _ n _ _ => some n
  | .finished _ => none

/-- How many packets were done with. -/
def finishedIn (log : List Event) : Nat :=
  log.countP fun e => match e with
    | .finished _ => true
    | _ => false

/-- The packet after `k` finished ones has sequence number `q + k`. -/
def Numbered (q : Nat) (log : List Event) : Prop :=
  ∀ pre e post n, log = pre ++ e :: post → seqOf e = some n → n = (q + finishedIn pre) % 2^32

/-- Handlers read no further than the payload they got; `DoNewKeys` installs known algorithms with
a keyed cipher; a handler that puts a message off does not change keys. -/
structure Tame {P : Prims} {A : Type} (H : Handlers P A) : Prop where
  idx : ∀ a m p, (H.run a m p).2.1 ≤ p.length
  keys : ∀ a m p s c, (H.run a m p).2.2.2 = some (s, c) → SuiteOk s ∧ FreshCipher P false s c
  held : ∀ a m p, (H.run a m p).1 = some .authPending → (H.run a m p).2.2.2 = none

/-- The cipher has been keyed for these algorithms. -/
def KeyedFor (P : Prims) (s : Suite) (c : Option P.State) : Prop :=
  s.aead = true → ∃ st iv0, P.setKey s.encId false iv0 s.encKey = some st ∧ c = some st

/-- A receiving side between two packets: sound buffer, known and keyed algorithms, nothing recorded
yet. -/
structure Start {P : Prims} {A : Type} (x : Conn P A) : Prop where
  inp : Spec.Buffer.Ok x.rcv.inp
  suite : SuiteOk x.rcv.peer
  keyed : KeyedFor P x.rcv.peer x.rcv.peerCipher
  phase : x.rcv.phase = .init
  log : x.log = []
  seq : x.rcv.peerSeq < 2^32

/-- A step with a working allocator. -/
def Usable : RxStep → Prop
  | .receive alloc _ => Spec.Buffer.Allocator alloc
  | .flushed => True

/-- Errors of the transport, or lack of memory, while waiting for bytes. -/
def Waiting (e : Err) : Prop := e = .wantRead ∨ e = .socketError ∨ e = .memory

/-- There is memory, and the transport hands out whatever it has, up to 40000 bytes at a time, at
least `k` times. -/
def Generous (k : Nat) (alloc : Nat → Option Bytes) (io : List IoRecv) : Prop :=
  (∀ n, alloc n ≠ none) ∧ ∃ t, io = List.replicate k (.got 40000) ++ t

/-- A call with memory at hand and a transport that hands out whatever it has. -/
def Plenty (a : RxStep) : Prop :=
  ∃ alloc io k, a = .receive alloc io ∧ Spec.Buffer.Allocator alloc ∧ Generous (k + 2) alloc io

/-- A call that returned `r` and left `x` either finished its packet or is waiting for bytes. -/
def Healthy {P : Prims} {A : Type} (r : Option Err) (x : Conn P A) : Prop :=
  x.rcv.phase = .init ∨ (x.rcv.phase = .packetFinish ∧ ∃ e, r = some e ∧ Waiting e)

/-- A history of such calls, and flushes of the output in between. -/
inductive HealthyRun {P : Prims} {A : Type} (H : Handlers P A) (x : Conn P A) : Conn P A → Prop
  | start : HealthyRun H x x
  | step {y : Conn P A} (hy : HealthyRun H x y) (a : RxStep) (ha : Usable a) (r : Option Err) (z : Conn P A)
      (hz : rxStep H y a = some (r, z)) (hh : a ≠ .flushed → Healthy r z) : HealthyRun H x z

/-- What is in the buffer is not beyond the first packet: at most a block, or part of one packet in
the clear. -/
def WithinPacket (s : Suite) (u : Bytes) : Prop :=
  u.length ≤ s.blockSz ∨
    (s.encId = .none ∧ s.macId = .none ∧ u.length ≤ 4 + Spec.Wire.beNat (u.take 4))

/-- Decryption inverts encryption (a fact about AES and wolfCrypt, assumed). `sync id e d`: the
decrypting state `d` is at the place in the cipher stream where the encrypting state `e` is. -/
structure Laws (P : Prims) where
  sync : Enc → P.State → P.State → Prop
  /-- Both sides keyed alike start in step. -/
  fresh : ∀ {id iv key e d}, P.setKey id true iv key = some e → P.setKey id false iv key = some d → sync id e d
  /-- Decrypting whole blocks gives back what was encrypted. -/
  inverse : ∀ {id e d x y e'}, sync id e d → 16 ∣ x.length → P.enc id e x = some (y, e') →
    ∃ d', P.dec id d y = some (x, d') ∧ sync id e' d'
  /-- Blocks may be decrypted in two parts. -/
  parts : ∀ {id d y1 y2 x d'}, 16 ∣ y1.length → P.dec id d (y1 ++ y2) = some (x, d') →
    ∃ x1 x2 d1, P.dec id d y1 = some (x1, d1) ∧ P.dec id d1 y2 = some (x2, d') ∧ x = x1 ++ x2
  /-- AES-GCM opens what it sealed. -/
  gcm : ∀ {id e d iv x aad n ct tag}, sync id e d → P.gcmSeal id e iv x aad n = some (ct, tag) →
    P.gcmOpen id d iv ct tag aad = some x

/-- The receiver's algorithms, keys and sequence number are the sender's, its cipher in step. -/
structure InStep {P : Prims} (L : Laws P) (s : Crypto P) (suite : Suite) (cipher : Option P.State) (seq : Nat) :
    Prop where
  suite : suite = s.suite
  seq : seq = s.seq
  cipher : s.suite.encId ≠ .none → ∃ e d, s.cipher = some e ∧ cipher = some d ∧ L.sync s.suite.encId e d

/-- The messages handed over, in order, put off and tried again or not. -/
def messages (log : List Event) : List Bytes :=
  log.filterMap fun e => match e with
    | .acted _ _ msg payload => some (msg :: payload)
    | _ => none

/-- Payloads of the sizes every implementation must be able to receive (RFC 4253 section 6.1); a
message has a number, so none is empty. -/
def Receivable (payload : Bytes) : Prop := payload ≠ [] ∧ payload.length ≤ 32768

/-- The payloads of what was said. -/
def payloads : List Item → List Bytes
  | [] => []
  | .packet p :: l => p :: payloads l
  | _ :: l => payloads l

/-- Applications that take what was said: each message is allowed when it comes, none is put off,
and new keys are taken into use after the message after which the sender did. -/
inductive Takes {P : Prims} {A : Type} (H : Handlers P A) : A → List Item → Prop
  | nil (a : A) : Takes H a []
  | packet (a : A) (m : Byte) (p : Bytes) (l : List Item) (ha : H.allowed a m = true)
      (hp : (H.run a m p).1 ≠ some .authPending) (hk : (H.run a m p).2.2.2 = none)
      (ht : Takes H (H.highwater (H.run a m p).2.2.1).2 l) : Takes H a (.packet (m :: p) :: l)
  | rekey (a : A) (m : Byte) (p : Bytes) (n : Suite) (c : Option P.State) (l : List Item)
      (ha : H.allowed a m = true) (hp : (H.run a m p).1 ≠ some .authPending)
      (hk : (H.run a m p).2.2.2 = some (n, c)) (ht : Takes H (H.highwater (H.run a m p).2.2.1).2 l) :
      Takes H a (.packet (m :: p) :: .keys n :: l)

/-- How many packets were opened by the AEAD cipher. -/
def openedIn (log : List Event) : Nat :=
  log.countP fun e => match e with
    | .opened .. => true
    | _ => false

/-- The nonce with which packet number `k` was opened is `iv + k`. -/
def NoncesFrom (iv : Bytes) (log : List Event) : Prop :=
  ∀ pre s q packet ct tag post, log = pre ++ .opened s q packet ct tag :: post → NonceAt iv (openedIn pre) s.iv

end Spec.Receive
