import Verif.Model.Packet
import Verif.Spec.Wire
import Verif.Spec.Buffer
/-!
# The SSH binary packet protocol (RFC 4253 section 6, RFC 5647 section 7)

What a packet looks like, what is put on the wire for it, and what is assumed of the cryptographic
primitives.
-/

namespace Spec.Packet
open Wolf Wolf.Packet

/-- RFC 4253 section 6: `packet_length`, `padding_length`, payload, padding. -/
def framed (payload pad : Bytes) : Bytes :=
  Spec.Wire.encUint32 (1 + payload.length + pad.length)
    ++ ([UInt8.ofNat pad.length] ++ (payload ++ pad))

/-- RFC 4253 section 6: at least four and at most 255 bytes of padding, what is encrypted is a
multiple of the block size. The length field is not encrypted under AES-GCM (RFC 5647 section
7.1). -/
def GoodPad (block : Nat) (aead : Bool) (payload pad : Bytes) : Prop :=
  4 ≤ pad.length ∧ pad.length ≤ 255 ∧
    block ∣ (if aead then 0 else 4) + 1 + payload.length + pad.length

/-- The MAC of a packet: HMAC over the sequence number and the unencrypted packet (RFC 4253
section 6.4). -/
def MacOf (P : Prims) (s : Suite) (seq : Nat) (packet mac : Bytes) : Prop :=
  match s.macId with
  | .none => mac = []
  | m => ∃ d, P.hmac m s.macKey (Spec.Wire.encUint32 seq ++ packet) = some d ∧ mac = d.take s.macSz

/-- The bytes on the wire for a packet: encrypted packet and MAC, or under AES-GCM the length in
the clear as associated data, cipher text and tag. `c`, `c'` are the cipher states before and
after. -/
def Sealed (P : Prims) (s : Suite) (c : Option P.State) (seq : Nat) (packet wire : Bytes)
    (c' : Option P.State) : Prop :=
  match s.encId with
  | .unknown => False
  | .none => ∃ mac, MacOf P s seq packet mac ∧ wire = packet ++ mac ∧ c' = c
  | .gcm k => ∃ st ct tag, c = some st ∧
      P.gcmSeal (.gcm k) st s.iv (packet.drop 4) (packet.take 4) 16 = some (ct, tag) ∧
      wire = packet.take 4 ++ (ct ++ tag) ∧ c' = c
  | id => ∃ st st' ct mac, c = some st ∧ P.enc id st packet = some (ct, st') ∧
      MacOf P s seq packet mac ∧ wire = ct ++ mac ∧ c' = some st'

/-- The nonce for the packet after the one that used `iv`: the last eight of the twelve bytes
count up, big-endian (RFC 5647 section 7.1). -/
def NextNonce (s : Suite) (iv' : Bytes) : Prop :=
  match s.encId with
  | .gcm _ => iv'.length = s.iv.length ∧ iv'.take 4 = s.iv.take 4 ∧
      Spec.Wire.beNat (iv'.drop 4) = (Spec.Wire.beNat (s.iv.drop 4) + 1) % 2^64
  | _ => iv' = s.iv

/-- Algorithms as a key exchange installs them (a known cipher and MAC, AEAD exactly for GCM, with
a twelve byte nonce), or none at all before the first. -/
def SuiteOk (s : Suite) : Prop :=
  s.encId ≠ .unknown ∧ s.macId ≠ .unknown ∧
  s = setAlgoIds s.encId (aeadModeForId s.encId) s.macId s.iv s.encKey s.macKey ∧
  (s.aead = true → s.iv.length = 12)

/-- What is assumed of the sizes of the primitives' results: ciphers keep the length, tags have the
length asked for, digests have theirs. -/
structure Sizes (P : Prims) : Prop where
  enc : ∀ id st x y st', P.enc id st x = some (y, st') → y.length = x.length
  dec : ∀ id st x y st', P.dec id st x = some (y, st') → y.length = x.length
  hmac : ∀ m k x d, P.hmac m k x = some d → macSzForId m ≤ d.length
  gcmSeal : ∀ id st iv x aad n ct tag, P.gcmSeal id st iv x aad n = some (ct, tag) →
    ct.length = x.length ∧ tag.length = n
  gcmOpen : ∀ id st iv x tag aad y, P.gcmOpen id st iv x tag aad = some y → y.length = x.length

/-- A random generator: what it delivers has the size asked for. -/
def Generator (rng : Nat → Option Bytes) : Prop := ∀ n bs, rng n = some bs → bs.length = n

/-- A cipher that needs a key has one. -/
def Keyed {P : Prims} (s : Ssh P) : Prop := s.suite.encId = .none ∨ s.cipher ≠ none

/-- Some cryptographic primitive reports a failure. -/
def Faulty (P : Prims) (rng : Nat → Option Bytes) : Prop :=
  (∃ n, rng n = none) ∨ (∃ m k x, P.hmac m k x = none) ∨ (∃ id st x, P.enc id st x = none) ∨
  (∃ id st iv x aad n, P.gcmSeal id st iv x aad n = none)

/-- What a side says, in order: payloads of packets, identification lines, changes of keys. -/
inductive Item where
  | packet (payload : Bytes)
  | raw (line : Bytes)
  | keys (n : Suite)

/-- The cryptographic state of one direction. -/
structure Crypto (P : Prims) where
  suite : Suite
  cipher : Option P.State
  seq : Nat

/-- The cipher state right after new keys. -/
def FreshCipher (P : Prims) (isEnc : Bool) (n : Suite) (c : Option P.State) : Prop :=
  match n.encId with
  | .none => c = none
  | id => ∃ st, P.setKey id isEnc n.iv n.encKey = some st ∧ c = some st

/-- `Stream s items w s'`: saying `items` from state `s` puts exactly the bytes `w` on the wire,
packet after packet, with consecutive sequence numbers (across new keys) and consecutive nonces. -/
inductive Stream (P : Prims) : Crypto P → List Item → Bytes → Crypto P → Prop
  | nil s : Stream P s [] [] s
  | packet {s items w s1} (h : Stream P s items w s1) (payload pad wire : Bytes) (c' : Option P.State)
      (iv' : Bytes) (hp : GoodPad s1.suite.blockSz s1.suite.aead payload pad)
      (hs : Sealed P s1.suite s1.cipher s1.seq (framed payload pad) wire c')
      (hn : NextNonce s1.suite iv') :
      Stream P s (items ++ [.packet payload]) (w ++ wire)
        ⟨{ s1.suite with iv := iv' }, c', (s1.seq + 1) % 2^32⟩
  | raw {s items w s1} (h : Stream P s items w s1) (line : Bytes) :
      Stream P s (items ++ [.raw line]) (w ++ line) s1
  | keys {s items w s1} (h : Stream P s items w s1) (n : Suite) (c : Option P.State)
      (hc : FreshCipher P true n c) :
      Stream P s (items ++ [.keys n]) w ⟨n, c, s1.seq⟩

/-- How many packets. -/
def packets : List Item → Nat
  | [] => 0
  | .packet _ :: l => packets l + 1
  | _ :: l => packets l

/-- No change of keys. -/
def SameKeys (items : List Item) : Prop := ∀ n, Item.keys n ∉ items

/-- The nonce of packet number `k` under a key, `iv` being the first. -/
def NonceAt (iv : Bytes) (k : Nat) (x : Bytes) : Prop :=
  x.length = 12 ∧ x.take 4 = iv.take 4 ∧
    Spec.Wire.beNat (x.drop 4) = (Spec.Wire.beNat (iv.drop 4) + k) % 2^64

/-- What a step that returned `r` has said. -/
def said : TxStep → Option Err → List Item
  | .queue _ _ _ payload, none => [.packet payload]
  | .raw _ line, none => [.raw line]
  | .keys n, none => [.keys n]
  | _, _ => []

/-- What a run has said. -/
def saidAll : List TxStep → List (Option Err) → List Item
  | x :: xs, r :: rs => said x r ++ saidAll xs rs
  | _, _ => []

/-- A transport offered `rem` bytes takes no more than it was offered, and does not report the
unspecific error upon which everything queued is dropped on purpose. -/
def Honest : Nat → List IoSend → Prop
  | rem, .sent n :: io => n ≤ rem ∧ Honest (rem - n) io
  | rem, .general :: _ => rem = 0
  | _, _ => True

/-- A step with a working allocator and random generator, within the 32-bit size of the buffer (`u`
bytes are waiting), with a room estimate that covers the payload, an honest transport, and keys for
known algorithms. -/
def Proper (P : Prims) (u : Nat) : TxStep → Prop
  | .queue alloc rng est payload => Spec.Buffer.Allocator alloc ∧ Generator rng ∧ ¬ Faulty P rng ∧
      payload.length ≤ est ∧ est + u + 200 < 2^32
  | .raw alloc line => Spec.Buffer.Allocator alloc ∧ line.length + u < 2^32
  | .flush static _ io => static.length = 16 ∧ Honest u io
  | .keys n => SuiteOk n ∧ ∃ c, FreshCipher P true n c

/-- A run of proper steps. -/
def ProperRun {P : Prims} (s : Ssh P) : List TxStep → Prop
  | [] => True
  | x :: xs => Proper P (Spec.Buffer.unread s.out).length x ∧
      ∀ r d s', txStep s x = some (r, d, s') → ProperRun s' xs

/-- A packet layer that can be used: sound buffer, known algorithms, keyed cipher. -/
structure Ready {P : Prims} (s : Ssh P) : Prop where
  out : Spec.Buffer.Ok s.out
  suite : SuiteOk s.suite
  keyed : Keyed s
  seq : s.seq < 2^32

/-- The sending cryptographic state of a connection. -/
def crypto {P : Prims} (s : Ssh P) : Crypto P := ⟨s.suite, s.cipher, s.seq⟩

end Spec.Packet
