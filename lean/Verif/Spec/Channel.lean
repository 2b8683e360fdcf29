import Verif.Model.Channel
import Verif.Spec.Buffer
import Verif.Spec.Wire
/-!
# What channels promise

Everything here is about the ghost history of a channel (what was accepted, handed out, credited,
sent) and about the list of channels, not about how the code keeps track.
-/

namespace Spec.Channel
open Wolf Wolf.Channel Spec.Buffer

/-! ## Messages (RFC 4254, sections 5.1 to 5.3), after the message number -/

/-- Window adjustment: recipient channel, bytes to add. Also initial window and maximum packet size
in an open request. -/
def adjustMsg (m : Bytes) : Option (Nat × Nat) :=
  (Spec.Wire.uint32 m).bind fun p => (Spec.Wire.uint32 p.2).map fun q => (p.1, q.1)

/-- Data: recipient channel, string. -/
def dataMsg (m : Bytes) : Option (Nat × Bytes) :=
  (Spec.Wire.uint32 m).bind fun p => (Spec.Wire.string p.2).map fun q => (p.1, q.1)

/-- Extended data: recipient channel, type code, string. -/
def extMsg (m : Bytes) : Option (Nat × Nat × Bytes) :=
  (Spec.Wire.uint32 m).bind fun p => (Spec.Wire.uint32 p.2).bind fun q =>
    (Spec.Wire.string q.2).map fun r => (p.1, q.1, r.1)

/-- Open confirmation: recipient channel, sender channel, initial window, maximum packet. -/
def confMsg (m : Bytes) : Option (Nat × Nat × Nat × Nat) :=
  (Spec.Wire.uint32 m).bind fun p => (Spec.Wire.uint32 p.2).bind fun q =>
    (Spec.Wire.uint32 q.2).bind fun r => (Spec.Wire.uint32 r.2).map fun t => (p.1, q.1, r.1, t.1)

/-- Open request: channel type, sender channel, initial window, maximum packet (more may follow). -/
def openMsg (m : Bytes) : Option (Bytes × Nat × Nat × Nat) :=
  (Spec.Wire.string m).bind fun p => (Spec.Wire.uint32 p.2).bind fun q =>
    (adjustMsg q.2).map fun r => (p.1, q.1, r.1, r.2)

/-- The application refuses nothing, and the type is one that is allowed now: a session if there is no
channel yet, a forwarded connection if the application's forwarding callback accepts it (and, for
`forwarded-tcpip`, this is a client), an agent connection if there is an agent. -/
def Permitted (c : Conn) (E : OpenEnv) (type : Bytes) : Prop :=
  (E.openCb = none ∨ E.openCb = some none) ∧
  ((type = NameList.asc "session" ∧ c.chans = []) ∨
   (type = NameList.asc "direct-tcpip" ∧ E.fwdCb = some (none, none)) ∨
   (type = NameList.asc "forwarded-tcpip" ∧ c.server = false ∧ E.fwdCb = some (none, none)) ∨
   (type = NameList.asc "auth-agent@openssh.com" ∧ E.agent = true))

/-- The answer when a channel is refused. -/
def Refused (c : Conn) (E : OpenEnv) (peer : Nat) (r : Ret) (c' : Conn) : Prop :=
  c'.chans = c.chans ∧
    ((E.send.prep = none ∧ r = E.send.sent ∧ ∃ reason, c'.out = c.out ++ [.openFail peer reason]) ∨
     (E.send.prep ≠ none ∧ r = E.send.prep ∧ c'.out = c.out))

/-- The answer when a channel is made. -/
def Accepted (c : Conn) (E : OpenEnv) (peer win mx : Nat) (r : Ret) (c' : Conn) : Prop :=
  ∃ ch, c'.chans = c.chans ++ [ch] ∧ (∀ d ∈ c.chans, d.id ≠ ch.id) ∧ ch.peerId = peer ∧ ch.peerWindowSz = win ∧
    ch.peerMaxPacketSz = mx ∧ ch.windowSz = c.ctxWindow ∧ ch.g.tx = [] ∧
    ((E.send.prep = none ∧ r = E.send.sent ∧ c'.out = c.out ++ [.openConf peer ch.id]) ∨
     (E.send.prep ≠ none ∧ r = E.send.prep ∧ c'.out = c.out))

/-! ## History -/

/-- Number of data bytes in a log of queued messages. -/
def dataBytes : List Tx → Nat
  | [] => 0
  | .data b :: r => b.length + dataBytes r
  | .ext b :: r => b.length + dataBytes r
  | _ :: r => dataBytes r

/-- Is this a data or stderr message? -/
def isData : Tx → Bool
  | .data _ => true
  | .ext _ => true
  | _ => false

/-- No data or stderr message follows a delivered EOF. -/
def quietAfterEof : List Tx → Bool
  | [] => true
  | .eof true :: r => r.all (fun t => !isData t)
  | _ :: r => quietAfterEof r

/-- No data or stderr message follows any queued EOF. -/
def quietAfterAnyEof : List Tx → Bool
  | [] => true
  | .eof _ :: r => r.all (fun t => !isData t)
  | _ :: r => quietAfterAnyEof r

/-- Window advertised to the peer: the initial one and all credit sent. -/
def advertised (ch : Chan) : Nat := ch.g.initial + ch.g.credited

/-- Bytes the peer has sent on the channel and this side has taken. -/
def taken (ch : Chan) : Nat := ch.g.got.length + ch.g.gotExt.length + ch.g.dropped

/-- Inputs that make sense: a packet's payload lies in its buffer, memory allocations have the
size asked for, and there is room for one more channel. Everything else is arbitrary. -/
def WellFormed (c : Conn) : In → Prop
  | .rxOpen E mem len _ => len ≤ mem.length ∧ len < 2^32 ∧
      (∀ m, E.buffer = some m → m.length = c.ctxWindow) ∧ c.chans.length + 1 < 2^32
  | .rxOpenConf mem len _ _ => len ≤ mem.length ∧ len < 2^32
  | .rxOpenFail mem len _ _ => len ≤ mem.length ∧ len < 2^32
  | .rxAdjust mem len _ => len ≤ mem.length ∧ len < 2^32
  | .rxData mem len _ => len ≤ mem.length ∧ len < 2^32
  | .rxExt alloc mem len _ _ => len ≤ mem.length ∧ len < 2^32 ∧ Allocator alloc
  | .rxEof mem len _ _ => len ≤ mem.length ∧ len < 2^32
  | .rxClose mem len _ _ => len ≤ mem.length ∧ len < 2^32
  | .openLocal _ _ buffer _ _ =>
      (∀ m, buffer = some m → m.length = c.ctxWindow) ∧ c.chans.length + 1 < 2^32
  | .readExt static _ _ _ => static.length = 16
  | _ => True

/-- Data, stderr and window adjustments: what a key exchange must not be interleaved with. -/
def isTraffic : OutMsg → Bool
  | .data _ _ => true
  | .ext _ _ => true
  | .adjust _ _ => true
  | _ => false

/-- Data and stderr. -/
def carriesData : OutMsg → Bool
  | .data _ _ => true
  | .ext _ _ => true
  | _ => false

/-- A call that sends data. -/
def isSend : In → Bool
  | .send .. => true
  | .streamSend .. => true
  | _ => false

/-- The end of a key exchange. -/
def isKeyed : In → Bool
  | .keyed _ => true
  | _ => false

/-! ## What is seen from outside, step by step -/

/-- Was this the result? (`WS_CHAN_RXD` and `WS_EXTDATA` report that data has arrived.) -/
def answered (o : Option (Ret × Conn)) (x : Err) : Prop := o.map (·.1) = some (some x)

instance (o : Option (Ret × Conn)) (x : Err) : Decidable (answered o x) :=
  inferInstanceAs (Decidable (_ = _))

/-- The data bytes accepted from the peer for channel `id` in this step. -/
def acceptedBy (id : Nat) (c : Conn) : In → Bytes
  | .rxData mem len idx =>
    match dataMsg ((mem.take len).drop idx) with
    | some m => if answered (doData c mem len idx) .chanRxd ∧ m.1 = id then m.2 else []
    | none => []
  | _ => []

/-- The stderr bytes (type code 1, RFC 4254, section 5.2) accepted from the peer for channel `id` in
this step. -/
def acceptedExtBy (id : Nat) (c : Conn) : In → Bytes
  | .rxExt alloc mem len idx e =>
    match extMsg ((mem.take len).drop idx) with
    | some m => if answered (doExtData alloc c mem len idx e) .extData ∧ m.1 = id ∧ m.2.1 = 1 then m.2.2 else []
    | none => []
  | _ => []

/-- What a read returned. -/
def okBytes : Option (Except Err Bytes × Conn) → Bytes
  | some (.ok d, _) => d
  | _ => []

/-- Did a read fail? -/
def failed : Option (Except Err Bytes × Conn) → Bool
  | some (.error _, _) => true
  | _ => false

/-- The channel `wolfSSH_stream_read` reads. -/
def firstId (c : Conn) : Option Nat := c.chans.head?.map (·.id)

/-- The data bytes returned to the application from channel `id` in this step. -/
def returnedBy (id : Nat) (c : Conn) : In → Bytes
  | .read i n e => if i = id then okBytes (channelIdRead c i n e) else []
  | .streamRead n e => if firstId c = some id then okBytes (streamRead c n e) else []
  | _ => []

/-- The stderr bytes returned to the application from channel `id` in this step. -/
def returnedExtBy (id : Nat) (c : Conn) : In → Bytes
  | .readExt static i n e => if i = id then okBytes (channelReadExt static c i n e) else []
  | _ => []

/-- This step is a `wolfSSH_ChannelIdRead` of channel `id` that asks for bytes and fails. -/
def readFails (id : Nat) (c : Conn) : In → Bool
  | .read i n e => i == id && n != 0 && failed (channelIdRead c i n e)
  | _ => false

/-- The send window the peer grants channel `id` in this step with a window adjustment that is
accepted. -/
def grantedBy (id : Nat) (c : Conn) : In → Nat
  | .rxAdjust mem len idx =>
    match adjustMsg ((mem.take len).drop idx) with
    | some m => if (doWindowAdjust c mem len idx).map (·.1) = some none ∧ m.1 = id then m.2 else 0
    | none => 0
  | _ => 0

/-- This step is an open confirmation for channel `id`, which sets the send window. -/
def confirms (id : Nat) : In → Bool
  | .rxOpenConf mem len idx _ => (confMsg ((mem.take len).drop idx)).any fun m => m.1 == id
  | _ => false

/-- The messages put into the output buffer in this step. -/
def queuedBy (c : Conn) (x : In) : List OutMsg :=
  match step c x with
  | some c' => c'.out.drop c.out.length
  | none => []

/-- The bytes of a data or stderr message. -/
def payload : OutMsg → Bytes
  | .data _ b => b
  | .ext _ b => b
  | _ => []

/-- The bytes sent on channel `id` in this step. -/
def sentBy (id : Nat) (c : Conn) (x : In) : Bytes :=
  match x with
  | .send _ i .. => if i = id then (queuedBy c x).flatMap payload else []
  | .streamSend .. => if firstId c = some id then (queuedBy c x).flatMap payload else []
  | _ => []

/-- What a log entry looks like on the wire, `peer` being the peer's number for the channel. -/
def onWire (peer : Nat) : Tx → OutMsg
  | .data b => .data peer b
  | .ext b => .ext peer b
  | .eof _ => .eof peer
  | .close => .close peer

/-- Add up over a run. -/
def total (f : Conn → In → Nat) : Conn → List In → Nat
  | _, [] => 0
  | c, x :: xs => f c x + match step c x with
    | some c' => total f c' xs
    | none => 0

/-- Concatenate over a run. -/
def over (f : Conn → In → Bytes) : Conn → List In → Bytes
  | _, [] => []
  | c, x :: xs => f c x ++ match step c x with
    | some c' => over f c' xs
    | none => []

/-- Is there such a channel? -/
def Has (id : Nat) (c : Conn) : Prop := ∃ ch ∈ c.chans, ch.id = id

/-- A run of a session, channel `id` being open all along. -/
inductive Runs (id : Nat) : Conn → List In → Conn → Prop where
  | nil {c} : Has id c → Runs id c [] c
  | cons {c c1 c' x xs} : Has id c → WellFormed c x → step c x = some c1 → Runs id c1 xs c' →
      Runs id c (x :: xs) c'

/-- No read of the channel failed in the run. -/
def NoFailedRead (id : Nat) : Conn → List In → Prop
  | _, [] => True
  | c, x :: xs => readFails id c x = false ∧ ∀ c', step c x = some c' → NoFailedRead id c' xs

/-- A fresh session. -/
def fresh (server : Bool) (window maxPacket : Nat) : Conn :=
  { server := server, ctxWindow := window, ctxMaxPacket := maxPacket }

/-- The states a session can get into. `window` is `ctx->windowSz`, a `word32`. -/
inductive Reach (server : Bool) (window maxPacket : Nat) : Conn → Prop where
  | init : Reach server window maxPacket (fresh server window maxPacket)
  | step {c c' : Conn} {i : In} : Reach server window maxPacket c → WellFormed c i →
      step c i = some c' → Reach server window maxPacket c'

/-- A sequence of steps. -/
def runAll : Conn → List In → Option Conn
  | c, [] => some c
  | c, x :: xs => (step c x).bind fun c' => runAll c' xs

end Spec.Channel
