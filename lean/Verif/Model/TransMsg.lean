import Verif.Model.Wire
import Verif.Model.NameList
import Verif.Model.Request
/-!
# Transport messages 1 to 4: disconnect, ignore, unimplemented, debug
(src/internal.c:8028-8032, 8066-8226, 12157-12186, 16685-16793, 16898-16950, src/ssh.c:1473-1489)

`DoPacket` hands the readers the payload behind the message number: `mem` is the memory behind `buf + idx`, `len` is `payloadSz`,
and the cursor `payloadIdx` is zero. The loop that receives packets is in `Verif/Model/Receive.lean`; `PreparePacket` and
`BundlePacket` are in `Verif/Model/Packet.lean`.
-/

namespace Wolf.TransMsg
open Wolf Wolf.Wire Wolf.NameList Wolf.Channel Wolf.Request

/-- `MSGID_DISCONNECT` (wolfssh/internal.h:1664). -/
def MSGID_DISCONNECT : Byte := 1
/-- `MSGID_IGNORE` (wolfssh/internal.h:1665). -/
def MSGID_IGNORE : Byte := 2
/-- `MSGID_UNIMPLEMENTED` (wolfssh/internal.h:1666). -/
def MSGID_UNIMPLEMENTED : Byte := 3
/-- `MSGID_DEBUG` (wolfssh/internal.h:1667). -/
def MSGID_DEBUG : Byte := 4

/-! ## Readers -/

/-- `DoIgnore` (src/internal.c:8028-8032). -/
def doIgnore (mem : Bytes) (len idx : Nat) : Res Unit := getSkip mem len idx

/-- `DoUnimplemented` (src/internal.c:8141-8157): the result and the cursor. The number is only logged. -/
def doUnimplemented (mem : Bytes) (len idx : Nat) : Res Unit :=
  match getUint32 mem len idx with
  | .ok _ i => .ok () i
  | .err e _ => .err e idx
  | .ub => .ub

/-- What `DoDisconnect` leaves: its result, the cursor, and `ssh->error` if it is set. -/
structure Disc where
  ret : Ret
  idx : Nat
  error : Ret
  deriving DecidableEq, Repr

/-- `DoDisconnect` (src/internal.c:8160-8226). `none` is undefined behaviour, `error` is `ssh->error` before. The reason is only
logged. -/
def doDisconnect (mem : Bytes) (len idx : Nat) (error : Ret) : Option Disc :=
  match getUint32 mem len idx with
  | .ub => none
  | .err e _ => some ⟨some e, idx, error⟩
  | .ok _ i1 =>
    match getSkip mem len i1 with
    | .ub => none
    | .err e _ => some ⟨some e, idx, error⟩
    | .ok _ i2 =>
      match getSkip mem len i2 with
      | .ub => none
      | .err e _ => some ⟨some e, idx, error⟩
      | .ok _ i3 => some ⟨some .disconnect, i3, some .disconnect⟩

/-- The two strings `DoDebug` allocates. -/
inductive Slot where
  | msg | lang
  deriving DecidableEq, Repr

/-- Calls of `WMALLOC` that give memory, and of `WFREE` for memory. -/
inductive HeapEv where
  | alloc (s : Slot) (size : Nat)
  | free (s : Slot)
  deriving DecidableEq, Repr

/-- What `DoDebug` leaves: its result, the cursor, the calls for memory, and the strings (language, text) given to the log, NULL
being `none`. -/
structure Dbg where
  ret : Ret
  idx : Nat
  ev : List HeapEv
  shown : Option (Option Bytes × Option Bytes)
  deriving DecidableEq, Repr

/-- `ato32` on the four bytes at `i` (src/misc.c:66-79), with no check. -/
def rd32 (mem : Bytes) (i : Nat) : Option Nat :=
  match mem[i]?, mem[i+1]?, mem[i+2]?, mem[i+3]? with
  | some a, some b, some c, some d => some (ato32 a b c d)
  | _, _, _, _ => none

/-- One string of `DoDebug`: stopped, or the string (`none`: empty, nothing allocated), the cursor, the calls. -/
inductive Text where
  | ub
  | fail (e : Err)
  | got (t : Option Bytes) (b : Nat) (ev : List HeapEv)
  deriving DecidableEq, Repr

/-- One string of `DoDebug` behind its size `sz` (src/internal.c:8085-8100, 8109-8126). `early` is the test `len < begin` which is
only made for the second string; `alloc` says whether there is memory. The copy and the terminator must lie in memory. -/
def takeText (slot : Slot) (early : Bool) (mem : Bytes) (len b sz : Nat) (alloc : Bool) : Text :=
  if 0 < sz then
    if (early = true ∧ len < b) ∨ sz > sub32 len b then .fail .bufferE
    else if alloc = false then .fail .memory
    else if b + sz ≤ mem.length ∧ sz < add32 sz 1 then
      .got (some ((mem.drop b).take sz)) (add32 b sz) [.alloc slot (add32 sz 1)]
    else .ub
  else .got none b []

/-- `WFREE` of a string that may be NULL. -/
def wfree (slot : Slot) (t : Option Bytes) : List HeapEv := if t.isSome then [.free slot] else []

/-- What `%s` prints of a buffer: the bytes before the first NUL. -/
def cstr (t : Bytes) : Bytes := t.takeWhile (· ≠ 0)

/-- `DoDebug` (src/internal.c:8066-8138). `none` is undefined behaviour; `a1`, `a2` say whether there is memory for the text and
for the language. -/
def doDebug (mem : Bytes) (len idx : Nat) (a1 a2 : Bool) : Option Dbg :=
  if len < 2 * 4 + 1 then some ⟨some .badArgument, idx, [], none⟩
  else
    match mem[idx]?, rd32 mem (add32 idx 1) with
    | some always, some sz1 =>
      match takeText .msg false mem len (add32 (add32 idx 1) 4) sz1 a1 with
      | .ub => none
      | .fail e => some ⟨some e, idx, [], none⟩
      | .got msg b1 ev1 =>
        if 4 > sub32 len b1 then some ⟨some .bufferE, idx, ev1 ++ wfree .msg msg, none⟩
        else
          match rd32 mem b1 with
          | none => none
          | some sz2 =>
            match takeText .lang true mem len (add32 b1 4) sz2 a2 with
            | .ub => none
            | .fail e => some ⟨some e, idx, ev1 ++ wfree .msg msg, none⟩
            | .got lang b2 ev2 =>
              some ⟨none, b2, ev1 ++ (ev2 ++ (wfree .msg msg ++ wfree .lang lang)),
                if always ≠ 0 then some (lang.map cstr, msg.map cstr) else none⟩
    | _, _ => none

/-! ## Senders: the size `PreparePacket` is told, and the payload written -/

/-- `SendUnimplemented` (src/internal.c:16685-16725), `seq` being `ssh->peerSeq`. -/
def unimplemented (seq : Nat) : Nat × Bytes := (1 + 4, MSGID_UNIMPLEMENTED :: c32toa seq)

/-- `SendDisconnect` (src/internal.c:16726-16758). -/
def disconnect (reason : Nat) : Nat × Bytes := (1 + 4 + 4 * 2, MSGID_DISCONNECT :: (c32toa reason ++ (c32toa 0 ++ c32toa 0)))

/-- `SendIgnore` (src/internal.c:16761-16793) with the bytes `d`. -/
def ignore (d : Bytes) : Nat × Bytes := (add32 (1 + 4) d.length, MSGID_IGNORE :: (c32toa d.length ++ (if 0 < d.length then d else [])))

/-- `SendDebug` (src/internal.c:16898-16950); `msg` NULL is `none`, and holds no NUL otherwise. -/
def debug (always : Byte) (msg : Option Bytes) : Nat × Bytes :=
  let m := msg.getD []
  let tag := asc "en-us"
  (add32 (add32 (1 + 1 + 4 * 2) m.length) tag.length,
    MSGID_DEBUG :: ((if always ≠ 0 then (1 : Byte) else 0) :: (c32toa m.length ++ ((if 0 < m.length then m else []) ++
      (c32toa tag.length ++ tag)))))

/-- `wolfSSH_SendIgnore` (src/ssh.c:1473-1482); the bytes of the caller are unused. -/
def sendIgnore (_buf : Bytes) (e : SendEnv) : Ret × List Ev := sendPayload e (ignore (List.replicate 128 0)).2

/-- `wolfSSH_SendDisconnect` (src/ssh.c:1485-1489). -/
def sendDisconnect (reason : Nat) (e : SendEnv) : Ret × List Ev := sendPayload e (disconnect reason).2

end Wolf.TransMsg
