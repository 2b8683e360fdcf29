import Verif.Model.NameList
/-!
# KEXINIT: building (src/internal.c:13277-13480) and negotiation (src/internal.c:5273-5675)
-/

namespace Wolf.Kex
open Wolf Wolf.Wire Wolf.NameList

/-- Sequencing of readers: stop at the first failure (`if (ret == WS_SUCCESS)` chains). -/
def Res.bind (r : Res α) (f : α → Nat → Res β) : Res β :=
  match r with
  | .ub => .ub
  | .err e i => .err e i
  | .ok v i => f v i

/-- `COOKIE_SZ` (wolfssh/internal.h). -/
def COOKIE_SZ : Nat := 16
/-- `WOLFSSH_KEXINIT_ID_LIST_MAX` (src/internal.c:5263-5271), default build. -/
def ID_LIST_MAX : Nat := 32

/-- The part of `WOLFSSH`/`WOLFSSH_CTX` negotiation depends on: the side, the algorithm table of
the build, the four algorithm lists (C strings; `keyList = none` is the NULL `algoListKey`), and
`ctx->publicKeyAlgo`. `aead` is `AeadModeForId` (src/internal.c:5142-5155). -/
structure Cfg where
  side : Side
  tbl : Table
  kexList : Bytes
  keyList : Option Bytes
  cipherList : Bytes
  macList : Bytes
  pubKeyAlgo : List Nat
  aead : Nat → Bool

/-- What a successful negotiation leaves in the handshake. -/
structure Nego where
  kex : Nat
  hostKey : Nat
  c2sEnc : Nat
  s2cEnc : Nat
  c2sMac : Nat
  s2cMac : Nat
  ignoreNext : Bool
  sendExtInfo : Bool
  deriving DecidableEq, Repr

/-- Parse one of this side's own lists, at cursor `i` (which it does not move):
`GetNameListRaw(cannedList, ..., list, AlgoListSz(list))`. -/
def ownIds (c : Cfg) (l : Bytes) (i : Nat) : Res (List Nat) :=
  match getNameListRaw c.tbl ID_LIST_MAX l (algoListSz l) with
  | .ub => .ub
  | .err e => .err e i
  | .ok ids => .ok ids i

/-- This side's host key algorithms (src/internal.c:5395-5405). -/
def ownKeyIds (c : Cfg) (i : Nat) : Res (List Nat) :=
  match c.side, c.keyList with
  | .server, none => .ok c.pubKeyAlgo i
  | _, l => ownIds c (l.getD []) i

/-- `algoId = MatchIdLists(side, list, listSz, cannedList, cannedListSz)` and the test for
`ID_UNKNOWN`. -/
def matchOr (c : Cfg) (peer own : List Nat) (e : Err) (i : Nat) : Res Nat :=
  let a := matchIdLists c.side peer own
  if a = ID_UNKNOWN then .err e i else .ok a i

/-- One cipher category: peer list, own list, match (e.g. src/internal.c:5420-5443). -/
def cipherStep (c : Cfg) (p : Bytes) (i : Nat) : Res Nat :=
  Res.bind (getNameList c.tbl ID_LIST_MAX p p.length i) fun peer i =>
  Res.bind (ownIds c c.cipherList i) fun own i =>
  matchOr c peer own .matchEncAlgo i

/-- One MAC category: the peer list is always parsed, matched only without AEAD
(src/internal.c:5474-5520). -/
def macStep (c : Cfg) (aeadMode : Bool) (p : Bytes) (i : Nat) : Res Nat :=
  Res.bind (getNameList c.tbl ID_LIST_MAX p p.length i) fun peer i =>
  if aeadMode then .ok ID_NONE i
  else
    Res.bind (ownIds c c.macList i) fun own i =>
    matchOr c peer own .matchMacAlgo i

/-- One compression category: `none` must match (src/internal.c:5522-5553). -/
def compStep (c : Cfg) (p : Bytes) (i : Nat) : Res Nat :=
  Res.bind (getNameList c.tbl ID_LIST_MAX p p.length i) fun peer i =>
  matchOr c peer [ID_NONE] .invalidAlgoId i

/-- `DoKexInit` (src/internal.c:5273-5590), from the start to the choice of algorithms, on the
payload `p` after the message id (cursor 0). `peerKeying` is
`isKeying & WOLFSSH_PEER_IS_KEYING`; `sendExtInfo0` the old flag, `extInfoSent` whether EXT_INFO
went out already.  The exchange hash started afterwards is modelled separately
(`Wolf.KexHash`). Guesses compare `list[0]` with the negotiated identifier. -/
def doKexInit (c : Cfg) (peerKeying extInfoSent sendExtInfo0 : Bool) (p : Bytes) : Res Nego :=
  if p.length = 0 then .err .badArgument 0
  else if peerKeying then .err .invalidState 0
  else if 0 + COOKIE_SZ > p.length then .err .parseE 0
  else
  Res.bind (getNameList c.tbl ID_LIST_MAX p p.length COOKIE_SZ) fun kexPeer i =>
  Res.bind (ownIds c c.kexList i) fun kexOwn i =>
  Res.bind (matchOr c kexPeer kexOwn .matchKexAlgo i) fun kex i =>
  let extId := match c.side with
    | .server => nameToId c.tbl (asc "ext-info-c")
    | .client => nameToId c.tbl (asc "ext-info-s")
  let sendExt := if extInfoSent then sendExtInfo0 else matchIdLists c.side kexPeer [extId] == extId
  Res.bind (getNameList c.tbl ID_LIST_MAX p p.length i) fun keyPeer i =>
  Res.bind (ownKeyIds c i) fun keyOwn i =>
  Res.bind (matchOr c keyPeer keyOwn .matchKeyAlgo i) fun hostKey i =>
  Res.bind (cipherStep c p i) fun c2sEnc i =>
  Res.bind (cipherStep c p i) fun s2cEnc i =>
  Res.bind (macStep c (c.aead c2sEnc) p i) fun c2sMac i =>
  Res.bind (macStep c (c.aead s2cEnc) p i) fun s2cMac i =>
  Res.bind (compStep c p i) fun _ i =>
  Res.bind (compStep c p i) fun _ i =>
  Res.bind (getSkip p p.length i) fun _ i =>
  Res.bind (getSkip p p.length i) fun _ i =>
  Res.bind (getBoolean p p.length i) fun follows i =>
  let ignoreNext := decide (follows ≠ 0 ∧
    (kexPeer.headD ID_UNKNOWN ≠ kex ∨ keyPeer.headD ID_UNKNOWN ≠ hostKey))
  Res.bind (getUint32 p p.length i) fun reserved i =>
  if reserved ≠ 0 then .err .parseE i
  else .ok ⟨kex, hostKey, c2sEnc, s2cEnc, c2sMac, s2cMac, ignoreNext, sendExt⟩ i

/-- `IsKexMatchError` (src/internal.c:5254-5258): the failures answered with
`SSH_MSG_DISCONNECT` (src/internal.c:5670-5672). -/
def isKexMatchError : Err → Bool
  | .matchKexAlgo | .matchKeyAlgo | .matchEncAlgo | .matchMacAlgo => true
  | _ => false

/-- `IdToName` (src/internal.c:3610-3623). -/
def idToName : Table → Nat → Bytes
  | [], _ => asc "unknown"
  | e :: t, id => if e.id = id then e.name else idToName t id

/-- `BuildNameList` (src/internal.c:13277-13319): names joined with commas. -/
def buildNameList (t : Table) : List Nat → Bytes
  | [] => []
  | [id] => idToName t id
  | id :: ids => idToName t id ++ [comma] ++ buildNameList t ids

/-- `CopyNameList` (src/internal.c:13236-13247). -/
def copyNameList (l : Bytes) (sz : Nat) : Bytes := c32toa sz ++ l.take sz

/-- The payload of `SendKexInit` after the message id (src/internal.c:13356-13446), for a 16 byte
random cookie. -/
def kexInitPayload (c : Cfg) (cookie : Bytes) : Bytes :=
  let plus := match c.side with
    | .client => asc ",ext-info-c"
    | .server => asc ",ext-info-s"
  let key := match c.side, c.keyList with
    | .server, none => buildNameList c.tbl c.pubKeyAlgo
    | _, l => l.getD []
  let own (l : Bytes) := copyNameList l (algoListSz l)
  cookie
    ++ (c32toa (algoListSz c.kexList + plus.length) ++ c.kexList.take (algoListSz c.kexList) ++ plus)
    ++ own key ++ own c.cipherList ++ own c.cipherList ++ own c.macList ++ own c.macList
    ++ own (asc "none") ++ own (asc "none") ++ c32toa 0 ++ c32toa 0 ++ [0] ++ c32toa 0

/-- `SkipGuessedKexMsg` (src/internal.c:5881-5892) at the head of the four handlers of key
exchange messages: whether the message is swallowed, and the new flag. -/
def skipGuessed (ignoreNext : Bool) : Bool × Bool :=
  if ignoreNext then (true, false) else (false, ignoreNext)

end Wolf.Kex
