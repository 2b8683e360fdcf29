import Verif.Model.Path
/-!
# SCP control messages (src/wolfscp.c:395-560, 1026-1411, 1699-1853)

A message is held in a buffer of `MSG_SZ` bytes; the buffer is memory with explicit bounds, and a read outside is undefined
behaviour (`none`). The POSIX build: ':' is an ordinary character of a file name. Allocation of the file name is taken to
succeed.
-/

namespace Wolf.Scp
open Wolf Wolf.Buffer Wolf.Path

/-- `DEFAULT_SCP_MSG_SZ` (wolfssh/wolfscp.h:42-44). -/
def MSG_SZ : Nat := 1024

/-- `SCP_MODE_OCTET_LEN` (wolfssh/internal.h:1971). -/
def OCTET_LEN : Nat := 4

/-- `mode & WOLFSSH_MODE_MASK`, the mask being 0777 (src/wolfscp.c:63). -/
def maskMode (m : Nat) : Nat := m % 512

/-! ## Reading -/

/-- The loop over the octal digits (src/wolfscp.c:1062-1070). -/
def octDigits : Nat → Bytes → Option Nat
  | m, [] => some m
  | m, b :: bs => if b < 48 ∨ b > 55 then none else octDigits (m * 8 + (b.toNat - 48)) bs

/-- `GetScpFileMode` (src/wolfscp.c:1035-1084): mode and index. -/
def getMode (mem : Bytes) (bufSz idx : Nat) : Option (Except Err (Nat × Nat)) :=
  if bufSz < OCTET_LEN + 1 then some (.error .badArgument)
  else
    match mem[idx]? with
    | none => none
    | some c =>
      if (c ≠ 67 ∧ c ≠ 68) ∨ idx + 1 > bufSz then some (.error .badArgument)
      else
        match read mem (idx + 1) OCTET_LEN with
        | none => none
        | some d =>
          match octDigits 0 d with
          | none => some (.error .badArgument)
          | some m =>
            let idx := idx + 1 + OCTET_LEN
            some (.ok (maskMode m, if bufSz ≥ idx + 1 then idx + 1 else idx))

/-- The loop of `FindSpaceInString` (src/wolfscp.c:1110-1116); `n` bytes are left. -/
def findSpace (mem : Bytes) : Nat → Nat → Option (Option Nat)
  | 0, _ => some none
  | n + 1, idx =>
    match mem[idx]? with
    | none => none
    | some b => if b = 32 then some (some idx) else findSpace mem n (idx + 1)

/-- `FindSpaceInString` (src/wolfscp.c:1099-1124). -/
def findSpaceIn (mem : Bytes) (bufSz idx : Nat) : Option (Option Nat) := findSpace mem (bufSz - idx) idx

/-- The loop of `ScpParseUInt64` (src/wolfscp.c:1154-1167). -/
def uintLoop (max : Nat) : Nat → Bytes → Option Nat
  | v, [] => some v
  | v, b :: bs =>
    if b < 48 ∨ b > 57 then none
    else
      let d := b.toNat - 48
      if d > max ∨ v > (max - d) / 10 then none else uintLoop max (v * 10 + d) bs

/-- `ScpParseUInt64` (src/wolfscp.c:1142-1171) on the `len` bytes at `idx`; `none` inside: refused. -/
def parseUInt (mem : Bytes) (idx len max : Nat) : Option (Option Nat) :=
  if len = 0 then some none
  else
    match read mem idx len with
    | none => none
    | some f => some (uintLoop max 0 f)

/-- `GetScpFileSize` (src/wolfscp.c:1182-1217): size and index. -/
def getSize (mem : Bytes) (bufSz idx : Nat) : Option (Except Err (Nat × Nat)) :=
  match findSpaceIn mem bufSz idx with
  | none => none
  | some none => some (.error .scpBadMsg)
  | some (some sp) =>
    match parseUInt mem idx (sp - idx) 4294967295 with
    | none => none
    | some none => some (.error .scpBadMsg)
    | some (some v) => some (.ok (v, if bufSz ≥ sp + 1 then sp + 1 else sp))

/-- The test of a name (src/wolfscp.c:1252-1274). -/
def badName (n : Bytes) : Bool :=
  decide (n.length = 0) || (decide (n.length = 1) && decide (n[0]? = some 46)) ||
    (decide (n.length = 2) && decide (n[0]? = some 46) && decide (n[1]? = some 46)) ||
    n.any (fun c => decide (c = 47) || decide (c = 92))

/-- `GetScpFileName` (src/wolfscp.c:1232-1304). -/
def getName (mem : Bytes) (bufSz idx : Nat) : Option (Except Err Bytes) :=
  match strlen (mem.drop idx) with
  | none => none
  | some len =>
    if idx + len > bufSz then some (.error .scpCmd)
    else
      match read mem idx len with
      | none => none
      | some n => if badName n then some (.error .scpBadMsg) else some (.ok n)

/-- The field of a time (src/wolfscp.c:1346-1361, 1383-1400): the value and the index behind the space. `from_` is where
the search for the space begins. -/
def getTimeField (mem : Bytes) (bufSz from_ idx : Nat) : Option (Except Err (Nat × Nat)) :=
  match findSpaceIn mem bufSz from_ with
  | none => none
  | some none => some (.error .scpTimestamp)
  | some (some sp) =>
    match parseUInt mem idx (sp - idx) 18446744073709551615 with
    | none => none
    | some none => some (.error .scpTimestamp)
    | some (some v) => if sp + 1 < bufSz then some (.ok (v, sp + 1)) else some (.error .scpTimestamp)

/-- Skipping "0 " (src/wolfscp.c:1363-1379). -/
def skipZero (mem : Bytes) (bufSz idx : Nat) : Option (Except Err Nat) :=
  match mem[idx]? with
  | none => none
  | some b =>
    if b ≠ 48 then some (.error .scpTimestamp)
    else if idx + 1 ≥ bufSz then some (.error .scpTimestamp)
    else
      match mem[idx + 1]? with
      | none => none
      | some c =>
        if c ≠ 32 then some (.error .scpTimestamp)
        else if idx + 2 ≥ bufSz then some (.error .scpTimestamp)
        else some (.ok (idx + 2))

/-- `GetScpTimestamp` (src/wolfscp.c:1328-1408): modification and access time. A modification time that was read stays set
when the rest is refused; the caller gives up then, so that is not modelled. -/
def getTimes (mem : Bytes) (bufSz idx : Nat) : Option (Except Err (Nat × Nat)) :=
  match mem[idx]? with
  | none => none
  | some c =>
    if c ≠ 84 ∨ idx + 1 > bufSz then some (.error .scpTimestamp)
    else
      match getTimeField mem bufSz idx (idx + 1) with
      | none => none
      | some (.error e) => some (.error e)
      | some (.ok (m, i)) =>
        match skipZero mem bufSz i with
        | none => none
        | some (.error e) => some (.error e)
        | some (.ok i) =>
          match getTimeField mem bufSz i i with
          | none => none
          | some (.error e) => some (.error e)
          | some (.ok (a, _)) => some (.ok (m, a))

/-- What a message said. The name is absent if it was not looked at. -/
inductive Msg where
  | file (mode size : Nat) (name : Option Bytes)
  | dir (mode size : Nat) (name : Option Bytes)
  | endDir
  | times (m a : Nat)
  deriving DecidableEq, Repr

/-- Mode, size and, unless the file is to be renamed, name (src/wolfscp.c:1811-1823). -/
def getEntry (rename : Bool) (mem : Bytes) (sz : Nat) : Option (Except Err (Nat × Nat × Option Bytes)) :=
  match getMode mem sz 0 with
  | none => none
  | some (.error e) => some (.error e)
  | some (.ok (m, i)) =>
    match getSize mem sz i with
    | none => none
    | some (.error e) => some (.error e)
    | some (.ok (n, i)) =>
      if rename then some (.ok (m, n, none))
      else
        match getName mem sz i with
        | none => none
        | some (.error e) => some (.error e)
        | some (.ok name) => some (.ok (m, n, some name))

/-- The switch of `ReceiveScpMessage` (src/wolfscp.c:1795-1848): `mem` is the buffer, with the newline that ended the
message of `sz` bytes replaced by a terminator. -/
def decode (rename : Bool) (mem : Bytes) (sz : Nat) : Option (Except Err Msg) :=
  match mem[0]? with
  | none => none
  | some c =>
    if c = 67 then (getEntry rename mem sz).map fun r => r.map fun (m, n, nm) => .file m n nm
    else if c = 68 then (getEntry rename mem sz).map fun r => r.map fun (m, n, nm) => .dir m n nm
    else if c = 69 then some (.ok .endDir)
    else if c = 84 then (getTimes mem sz 0).map fun r => r.map fun (m, a) => .times m a
    else some (.error .scpBadMsg)

/-- The end of `ReceiveScpMessage` (src/wolfscp.c:1790-1848) on a message `msg` whose last byte is a newline; `old` is what
earlier messages left in the rest of the buffer. -/
def parseMsg (rename : Bool) (msg old : Bytes) : Option (Except Err Msg) :=
  match write (msg ++ old) (msg.length - 1) [0] with
  | none => none
  | some mem => decode rename mem msg.length

/-! ## Writing -/

/-- The digits of a number below 10^20. -/
def decLoop : Nat → Nat → Bytes → Bytes
  | 0, _, acc => acc
  | f + 1, n, acc =>
    let acc := UInt8.ofNat (48 + n % 10) :: acc
    if n / 10 = 0 then acc else decLoop f (n / 10) acc

/-- `%u` and `%llu`. -/
def dec (n : Nat) : Bytes := decLoop 20 n []

/-- `%04o` of a number below 8^4. -/
def oct4 (m : Nat) : Bytes :=
  [UInt8.ofNat (48 + m / 512 % 8), UInt8.ofNat (48 + m / 64 % 8), UInt8.ofNat (48 + m / 8 % 8), UInt8.ofNat (48 + m % 8)]

/-- `WSNPRINTF(buf, sizeof(buf), ..)` into a buffer of `MSG_SZ` bytes, and `WSTRLEN` of it. -/
def snprintf (s : Bytes) : Bytes := s.take (MSG_SZ - 1)

/-- The text of `SendScpFileHeader` (src/wolfscp.c:462-466). -/
def fileHeader (mode size : Nat) (name : Bytes) : Bytes :=
  snprintf ([67] ++ oct4 (maskMode mode) ++ [32] ++ dec size ++ [32] ++ name ++ [10])

/-- The text of `SendScpEnterDirectory` (src/wolfscp.c:509-511). -/
def dirHeader (mode : Nat) (name : Bytes) : Bytes :=
  snprintf ([68] ++ oct4 (maskMode mode) ++ [32, 48, 32] ++ name ++ [10])

/-- The text of `SendScpTimestamp` (src/wolfscp.c:419-423). -/
def timesHeader (m a : Nat) : Bytes := snprintf ([84] ++ dec m ++ [32, 48, 32] ++ dec a ++ [32, 48, 10])

/-- The text of `SendScpExitDirectory` (src/wolfscp.c:545-546). -/
def endHeader : Bytes := [69, 10]

end Wolf.Scp
