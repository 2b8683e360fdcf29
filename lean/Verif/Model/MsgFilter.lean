import Verif.Model.Basic
/-!
# The message filter (src/internal.c:685-930, wolfssh/internal.h:1661-1760)

`handshake` is modelled by the one field the filter uses, `expectMsgId` (`0` is `MSGID_NONE`);
`none` is a NULL `ssh->handshake`. The filter's writes to `ssh->error` are omitted: `DoReceive`
overwrites the field with `DoPacket`'s result right after (src/internal.c:12922).
-/

namespace Wolf.MsgFilter
open Wolf

/-- `ACCEPT_*` and `CONNECT_*` progress values (wolfssh/internal.h:1583-1622). -/
def ACCEPT_KEYED : Nat := 4
def ACCEPT_SERVER_USERAUTH_SENT : Nat := 8
def CONNECT_CLIENT_USERAUTH_REQUEST_SENT : Nat := 7
def CONNECT_SERVER_USERAUTH_ACCEPT_DONE : Nat := 10

/-- The part of the session the filter looks at. -/
structure FState where
  /-- `acceptState` of a server, `connectState` of a client -/
  progress : Nat
  /-- `isKeying & WOLFSSH_PEER_IS_KEYING` -/
  peerKeying : Bool
  /-- `handshake` and its `expectMsgId` -/
  expect : Option Nat
  deriving DecidableEq, Repr

/-- The `MSGIDLIMIT_TRANS` block shared by both filters (src/internal.c:712-756, 825-869):
`some (answer, expect')` when the block returns, `none` when control goes on. -/
def transBlock (s : FState) (msg : Nat) : Option (Bool × Option Nat) :=
  if s.peerKeying then
    if msg = 20 then some (false, s.expect)
    else
      match s.expect with
      | some x =>
        if x ≠ 0 then
          if msg ≠ x then some (false, s.expect) else some (true, some 0)
        else none
      | none => none
  else if msg = 20 then some (true, s.expect)
  else some (false, s.expect)

/-- The last part of `IsMessageAllowedServer` (src/internal.c:758-793). -/
def serverPhase (s : FState) (msg : Nat) : Bool :=
  if s.progress < ACCEPT_KEYED ∧ msg > 34 then false
  else if s.progress < ACCEPT_SERVER_USERAUTH_SENT then
    if msg ≥ 80 then false
    else if msg > 50 ∧ msg ≠ 61 then false
    else true
  else if msg ≥ 50 ∧ msg < 80 then false
  else true

/-- `IsMessageAllowedServer` (src/internal.c:688-796): the answer and the new `expectMsgId`. -/
def isMessageAllowedServer (s : FState) (msg : Nat) : Bool × Option Nat :=
  if msg = 6 then (false, s.expect)
  else if msg = 5 then (s.progress == ACCEPT_KEYED, s.expect)
  else if 1 ≤ msg ∧ msg ≤ 19 then (true, s.expect)
  else if 1 ≤ msg ∧ msg ≤ 49 then
    match transBlock s msg with
    | some r => r
    | none => (serverPhase s msg, s.expect)
  else (serverPhase s msg, s.expect)

/-- The last part of `IsMessageAllowedClient` (src/internal.c:871-904). -/
def clientPhase (s : FState) (msg : Nat) : Bool :=
  if s.progress < CONNECT_SERVER_USERAUTH_ACCEPT_DONE then
    if msg ≥ 80 then false
    else if 50 ≤ msg ∧ msg ≤ 79 then
      if s.progress < CONNECT_CLIENT_USERAUTH_REQUEST_SENT then false else true
    else false
  else if msg ≥ 80 then true
  else false

/-- `IsMessageAllowedClient` (src/internal.c:801-906). -/
def isMessageAllowedClient (s : FState) (msg : Nat) : Bool × Option Nat :=
  if msg = 5 ∨ msg = 50 then (false, s.expect)
  else if msg = 6 then (s.progress == CONNECT_CLIENT_USERAUTH_REQUEST_SENT, s.expect)
  else if 1 ≤ msg ∧ msg ≤ 19 then (true, s.expect)
  else if 1 ≤ msg ∧ msg ≤ 49 then
    match transBlock s msg with
    | some r => r
    | none => (clientPhase s msg, s.expect)
  else (clientPhase s msg, s.expect)

end Wolf.MsgFilter
