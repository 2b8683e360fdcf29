import Verif.Model.ClientReq
import Verif.Spec.Request
import Verif.Proofs.Channel
/-!
# What a request must be and where it must arrive (RFC 4254, sections 4, 5.4, 6 and 7.1)

The messages as the protocol writes them, and what it means that the other side does what they say.
-/

namespace Spec.ClientReq
open Wolf Wolf.Channel Wolf.Request Wolf.NameList Spec.Wire Spec.Request

/-- A channel request (RFC 4254, 5.4). -/
def request (chan : Nat) (type : String) (want : UInt8) (rest : List UInt8) : List UInt8 :=
  98 :: (encUint32 chan ++ encString (asc type) ++ [want] ++ rest)

/-- A global request (RFC 4254, 4). -/
def global (name : List UInt8) (want : UInt8) (rest : List UInt8) : List UInt8 :=
  80 :: (encString name ++ [want] ++ rest)

/-- A name `wolfSSH_SetChannelType` is meant to take: not empty, and below 4096 bytes. -/
def Usable (name : List UInt8) : Prop := 0 < name.length ∧ name.length < 4096

/-- This side has a channel to the other side's channel `p`. -/
def HasPeer (c : Conn) (p : Nat) : Prop :=
  c.listSz = c.chans.length ∧ (∃ ch ∈ c.chans, ch.peerId = p) ∧ p < 2 ^ 32

/-- The message `m` makes the other side do `b` on its channel `p`: in every state with that channel and
whatever lies behind the message in memory, its application is called as `b` says, its session changes as `b`
says, and, if a reply is wanted and can be queued, exactly one is sent, telling whether `b` was allowed. -/
def Arrives (m : List UInt8) (E : CEnv) (p : Nat) (want : Bool) (b : Body) : Prop :=
  ∃ msg, m = 98 :: msg ∧
  ∀ (s : Sess) (ch : Chan) (after : List UInt8), Shape s.conn → ch ∈ s.conn.chans → ch.id = p →
    ∃ ret evs, doChannelRequest E s (msg ++ after) msg.length 0 = some (ret, evs, effect E p s b) ∧
      calls evs = bodyCalls E p b ∧
      packets evs = (if want ∧ E.send.prep = none then [(if allowed E b then 99 else 100) :: encUint32 ch.peerId]
        else [])

end Spec.ClientReq
