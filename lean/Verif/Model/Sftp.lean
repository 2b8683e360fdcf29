import Verif.Model.Wire
import Verif.Model.Buffer
import Verif.Model.Path
import Verif.Model.NameList
import Verif.Model.Posix
/-!
# The SFTP server: requests, handles, replies (src/wolfsftp.c, POSIX branches, default configuration)

A handler gets the body of one request (`data`, `maxSz`), the request id and the session; it returns its code, the session
behind, the calls into the file system it made with their results, and the packet it queued with
`wolfSSH_SFTP_RecvSetSend`, if any. The results of the file system calls and the memory `WMALLOC` returns are inputs (`Env`).
The outcome `none` is undefined behaviour. `memcpy` of zero bytes from NULL counts as defined.
-/

namespace Wolf.Sftp
open Wolf Wolf.Wire Wolf.Buffer Wolf.Path Wolf.NameList Posix

/-- `WOLFSSH_SFTP_HEADER` (wolfssh/wolfsftp.h:96). -/
def HEADER : Nat := 9

/-- `WOLFSSH_MAX_HANDLE` (wolfssh/wolfsftp.h:97), `WOLFSSH_HANDLE_ID_SZ` (204), `WOLFSSH_MAX_SFTP_HANDLES`
(wolfssh/internal.h:941), `WOLFSSH_MAX_SFTP_RW` (wolfssh/wolfsftp.h:180), `WOLFSSH_MAX_SFTP_PACKET` (201). -/
def MAX_HANDLE : Nat := 256
def HANDLE_ID_SZ : Nat := 8
def MAX_HANDLES : Nat := 64
def MAX_RW : Nat := 32768
def MAX_PACKET : Nat := 65536

/-- `enum WS_SFTPStatus` (wolfssh/wolfsftp.h:73-83). -/
def FTP_OK : Nat := 0
def FTP_EOF : Nat := 1
def FTP_NOFILE : Nat := 2
def FTP_PERMISSION : Nat := 3
def FTP_FAILURE : Nat := 4

/-- Types of replies (wolfssh/wolfsftp.h:63-67). -/
def FTP_STATUS : Byte := 101
def FTP_HANDLE : Byte := 102
def FTP_DATA : Byte := 103
def FTP_NAME : Byte := 104
def FTP_ATTRS : Byte := 105

/-- `WS_SFTP_FILEATRB` (wolfssh/wolfsftp.h:139-160). -/
structure Attr where
  flags : Nat := 0
  sz0 : Nat := 0
  sz1 : Nat := 0
  uid : Nat := 0
  gid : Nat := 0
  per : Nat := 0
  atime : Nat := 0
  mtime : Nat := 0
  extCount : Nat := 0
  deriving DecidableEq, Repr

/-- What the handler of one request meets: `alloc n` is the memory `WMALLOC(n)` returns (`none`: it fails), `node` whether
the allocations of a list node succeed, `stack` the contents of a local array of `WOLFSSH_MAX_FILENAME` bytes; `isLink` is
`wIsSymlink`; `pwrites i n` is the result of the i-th `pwrite` if it gets `n` bytes; `entries` are the names `readdir`
delivers until the end of the directory; `longName` is `SFTP_CreateLongName` (its text is not modelled) and fails also if
there is no memory for the entry. -/
structure Env where
  alloc : Nat → Option Bytes
  node : Bool
  stack : Bytes
  isLink : Bytes → Bool
  cwd : Option Bytes
  ok : Bool
  ok2 : Bool
  stat : Bytes → Option Stat
  fstat : Option Stat
  fd : Option Nat
  pwrites : Nat → Nat → Int
  pread : Nat → Option Bytes
  entries : List Bytes
  longName : Bytes → Attr → Option Bytes

/-- `WS_FILE_LIST` (src/wolfsftp.c:2757-2766). -/
structure FileH where
  fd : Nat
  name : Bytes
  id : Nat × Nat
  deriving DecidableEq, Repr

/-- `WS_DIR_LIST` (src/wolfsftp.c:2771-2777). -/
structure DirH where
  dir : Nat
  name : Bytes
  isEof : Bool
  id : Nat × Nat
  deriving DecidableEq, Repr

/-- The part of the session the server side of SFTP works on: the start path and the confinement root, the lists of open
handles, `handleIdCount`, `ssh->reqId`. -/
structure Sess where
  default : Option Bytes
  confine : Option Bytes
  files : List FileH
  dirs : List DirH
  nextId : Nat × Nat
  reqId : Nat
  deriving DecidableEq, Repr

/-- What a handler leaves behind. -/
structure Out where
  ret : Option Err
  st : Sess
  calls : List Call
  reply : Option Bytes
  deriving DecidableEq, Repr

/-! ## Building packets -/

/-- `SFTP_SetHeader` (src/wolfsftp.c:1070-1080). -/
def setHeader (reqId : Nat) (type : Byte) (len : Nat) (out : Bytes) : Option Bytes :=
  write out 0 (c32toa (add32 len 5) ++ [type] ++ c32toa reqId)

/-- `c32toa(v, out + idx); idx += UINT32_SZ`. -/
def put32 (v : Nat) (m : Option (Bytes × Nat)) : Option (Bytes × Nat) :=
  m.bind fun (out, idx) => (write out idx (c32toa v)).map fun out => (out, idx + 4)

/-- `WMEMCPY(out + idx, d, dSz); idx += dSz`. -/
def putBytes (d : Bytes) (m : Option (Bytes × Nat)) : Option (Bytes × Nat) :=
  m.bind fun (out, idx) => (write out idx d).map fun out => (out, idx + d.length)

/-- The size `wolfSSH_SFTP_CreateStatus` computes (src/wolfsftp.c:1887-1893). -/
def statusSz (reason lang : Bytes) : Nat := HEADER + 12 + reason.length + lang.length

/-- `wolfSSH_SFTP_CreateStatus` (src/wolfsftp.c:1876-1933) with a buffer: its new contents and `*outSz`. The two checks
`sz + idx + UINT32_SZ > maxSz` cannot fail. -/
def createStatus (status reqId : Nat) (reason lang out : Bytes) (outSz : Nat) : Option (Except Err (Bytes × Nat)) :=
  if statusSz reason lang > outSz then some (.error .bufferE)
  else
    ((putBytes lang <| put32 lang.length <| putBytes reason <| put32 reason.length <| put32 status <|
      (setHeader reqId FTP_STATUS (sub32 (statusSz reason lang) HEADER) out).map fun out => (out, HEADER))).map .ok

/-- The language tag all callers pass. -/
def english : Bytes := asc "English"

/-- A status packet in new memory: the two calls of `wolfSSH_SFTP_CreateStatus` with `WMALLOC` between them. -/
def newStatus (E : Env) (status reqId : Nat) (msg : Bytes) : Option (Except Err Bytes) :=
  match E.alloc (statusSz msg english) with
  | none => some (.error .memory)
  | some out =>
    match createStatus status reqId msg english out (statusSz msg english) with
    | none => none
    | some (.error _) => some (.error .fatal)
    | some (.ok (out, outSz)) => (read out 0 outSz).map .ok

/-- `SFTP_SendStatus` (src/wolfsftp.c:2034-2058) at the end of a handler that wants to return `ret`. -/
def finish (E : Env) (s : Sess) (calls : List Call) (status reqId : Nat) (msg : Bytes) (ret : Option Err) : Option Out :=
  match newStatus E status reqId msg with
  | none => none
  | some (.error e) => some ⟨some e, s, calls, none⟩
  | some (.ok p) => some ⟨ret, s, calls, some p⟩

/-- `SFTP_CreatePacket` (src/wolfsftp.c:1222-1245) with `out` of `outSz` bytes: the request id is `ssh->reqId`. -/
def createPacket (s : Sess) (type : Byte) (out : Bytes) (outSz : Nat) (data : Option Bytes) : Option (Except Err Bytes) :=
  if outSz < HEADER + 4 then some (.error .badArgument)
  else
    match put32 (sub32 (sub32 outSz HEADER) 4) <|
      (setHeader s.reqId type (sub32 outSz HEADER) out).map fun out => (out, HEADER) with
    | none => none
    | some (out, _) =>
      match data with
      | none => some (.ok out)
      | some d => if d.length + 4 + HEADER > outSz then some (.error .bufferE) else (write out 13 d).map .ok

/-- `SFTP_AttributesSz` (src/wolfsftp.c:1101-1138). -/
def attributesSz (a : Attr) : Nat :=
  4 + (if a.flags.testBit 0 then 8 else 0) + (if a.flags.testBit 1 then 8 else 0) + (if a.flags.testBit 2 then 4 else 0) +
    (if a.flags.testBit 3 then 8 else 0) + (if a.flags.testBit 31 then 4 else 0)

/-- `SFTP_SetAttributes` (src/wolfsftp.c:1145-1188), writing at `idx`. -/
def setAttributes (a : Attr) (m : Option (Bytes × Nat)) : Option (Bytes × Nat) :=
  let m := put32 a.flags m
  let m := if a.flags.testBit 0 then put32 a.sz0 (put32 a.sz1 m) else m
  let m := if a.flags.testBit 1 then put32 a.gid (put32 a.uid m) else m
  let m := if a.flags.testBit 2 then put32 a.per m else m
  let m := if a.flags.testBit 3 then put32 a.mtime (put32 a.atime m) else m
  if a.flags.testBit 31 then put32 a.extCount m else m

/-- `SFTP_GetAttributesHelper` (src/wolfsftp.c:5683-5708), 64-bit `off_t`. -/
def ofStat (st : Stat) : Attr :=
  { flags := 15, sz0 := st.size % 2 ^ 32, sz1 := st.size / 2 ^ 32 % 2 ^ 32, uid := st.uid % 2 ^ 32, gid := st.gid % 2 ^ 32,
    per := st.mode % 2 ^ 32, atime := st.atime % 2 ^ 32, mtime := st.mtime % 2 ^ 32 }

/-- An ATTRS packet in new memory (src/wolfsftp.c:5838-5856, the same in RecvSTAT and RecvLSTAT). -/
def newAttrs (E : Env) (reqId : Nat) (a : Attr) : Option (Except Err Bytes) :=
  match E.alloc (attributesSz a + HEADER) with
  | none => some (.error .memory)
  | some out =>
    (setAttributes a ((setHeader reqId FTP_ATTRS (attributesSz a) out).map fun out => (out, HEADER))).bind fun (out, _) =>
      (read out 0 (attributesSz a + HEADER)).map .ok

/-! ## Reading requests -/

/-- The two `GetSkip` calls of one extension. -/
def skipExts : Nat → Bytes → Nat → Nat → Res Unit
  | 0, _, _, idx => .ok () idx
  | n + 1, mem, len, idx =>
    match getSkip mem len idx with
    | .ub => .ub
    | .err e i => .err e i
    | .ok _ i =>
      match getSkip mem len i with
      | .ub => .ub
      | .err e i => .err e i
      | .ok _ i => skipExts n mem len i

/-- Then continue with the value and the index behind. -/
def andThen {α β : Type} (r : Res α) (k : α → Nat → Res β) : Res β :=
  match r with
  | .ub => .ub
  | .err e i => .err e i
  | .ok v i => k v i

/-- A pair of `GetUint32`, read only if the flag is set. -/
def optPair (flag : Bool) (mem : Bytes) (len idx : Nat) : Res (Nat × Nat) :=
  if flag then andThen (getUint32 mem len idx) fun a i => andThen (getUint32 mem len i) fun b i => .ok (a, b) i
  else .ok (0, 0) idx

/-- A `GetUint32`, read only if the flag is set. -/
def optWord (flag : Bool) (mem : Bytes) (len idx : Nat) : Res Nat :=
  if flag then getUint32 mem len idx else .ok 0 idx

/-- `SFTP_ParseAttributes_buffer` (src/wolfsftp.c:6859-6928). -/
def parseAttributes (mem : Bytes) (len idx : Nat) : Res Attr :=
  andThen (getUint32 mem len idx) fun flags i =>
  andThen (optPair (flags.testBit 0) mem len i) fun sz i =>
  andThen (optPair (flags.testBit 1) mem len i) fun ids i =>
  andThen (optWord (flags.testBit 2) mem len i) fun per i =>
  andThen (optPair (flags.testBit 3) mem len i) fun times i =>
  andThen (optWord (flags.testBit 31) mem len i) fun ext i =>
  andThen (skipExts ext mem len i) fun _ i =>
  .ok ⟨flags, sz.2, sz.1, ids.1, ids.2, per, times.1, times.2, ext⟩ i

/-- `GetStringRef` and the bytes it designates. -/
def getStr (mem : Bytes) (len idx : Nat) : Res Bytes :=
  match getStringRef mem len idx with
  | .ub => .ub
  | .err e i => .err e i
  | .ok r i =>
    match deref mem r with
    | none => .ub
    | some s => .ok s i

/-- `GetAndCleanPath` with a `dir[WOLFSSH_MAX_FILENAME]` of the caller. -/
def clean (E : Env) (s : Sess) (path : Bytes) : Option (Except Err Bytes) :=
  getAndCleanPath s.default s.confine E.isLink path E.stack

/-- `SFTP_HandleIdDecode` (src/wolfsftp.c:2304-2308) on a handle of eight bytes. -/
def decodeId (h : Bytes) : Option (Nat × Nat) :=
  match h with
  | [a, b, c, d, e, f, g, i] => some (ato32 a b c d, ato32 e f g i)
  | _ => none

/-- `SFTP_HandleIdEncode` (src/wolfsftp.c:2311-2315). -/
def encodeId (id : Nat × Nat) : Bytes := c32toa id.1 ++ c32toa id.2

/-- `SFTP_HandleIdNext` (src/wolfsftp.c:2319-2324): the id and the session behind. -/
def nextId (s : Sess) : (Nat × Nat) × Sess := (s.nextId, { s with nextId := addAssign64 s.nextId 1 })

/-- `SFTP_FindFileHandle` (src/wolfsftp.c:4137-4149). -/
def findFile (s : Sess) (id : Nat × Nat) : Option FileH := s.files.find? fun f => decide (f.id = id)

/-- `SFTP_RemoveFileHandle` (src/wolfsftp.c:4153-4190): the first node with that id leaves the list. -/
def removeFile (s : Sess) (id : Nat × Nat) : Sess := { s with files := s.files.eraseP fun f => decide (f.id = id) }

/-- `SFTP_FileHandleCapped` (src/wolfsftp.c:4065-4077), `SFTP_DirHandleCapped` (2781-2793): the loop counts up to the
limit. -/
def capped {α : Type} : List α → Nat → Bool
  | [], _ => false
  | _ :: l, count => if count + 1 ≥ MAX_HANDLES then true else capped l (count + 1)

/-- The failure of `SFTP_AddFileHandle` (src/wolfsftp.c:4082-4131), if any; `name` is the cleaned path. -/
def addFails (E : Env) (s : Sess) (name : Bytes) : Bool :=
  capped s.files 0 || !E.node || decide (name.length + 1 > MAX_FILENAME)

/-- An early return without a reply. -/
def stop (s : Sess) (e : Err) : Out := ⟨some e, s, [], none⟩

/-! ## The handlers -/

/-- `WOLFSSH_SFTP_SAFE_MODE` (wolfssh/wolfsftp.h:137). -/
def safeMode (m : Nat) : Nat := m &&& 0o777

/-- `wolfSSH_SFTP_RecvRMDIR` (src/wolfsftp.c:2064-2122). -/
def recvRmdir (E : Env) (s : Sess) (reqId : Nat) (data : Bytes) (maxSz : Nat) : Option Out :=
  match getStr data maxSz 0 with
  | .ub => none
  | .err _ _ => some (stop s .bufferE)
  | .ok p _ =>
    match clean E s p with
    | none => none
    | some (.error e) =>
      if e = .permissions then finish E s [] FTP_PERMISSION reqId (asc "Permission denied") (some .badFile)
      else finish E s [] FTP_FAILURE reqId (asc "Remove Directory Error") (some .badFile)
    | some (.ok dir) =>
      if E.ok then finish E s [.rmdir dir true] FTP_OK reqId (asc "Removed Directory") none
      else finish E s [.rmdir dir false] FTP_FAILURE reqId (asc "Remove Directory Error") (some .badFile)

/-- The mode `RecvMKDIR` uses (src/wolfsftp.c:2169-2175). -/
def mkdirMode (a : Attr) : Nat := if a.flags.testBit 2 then safeMode a.per else 0o755

/-- `wolfSSH_SFTP_RecvMKDIR` (src/wolfsftp.c:2130-2210). -/
def recvMkdir (E : Env) (s : Sess) (reqId : Nat) (data : Bytes) (maxSz : Nat) : Option Out :=
  match getStr data maxSz 0 with
  | .ub => none
  | .err _ _ => some (stop s .bufferE)
  | .ok p i =>
    match clean E s p with
    | none => none
    | some (.error e) =>
      if e = .permissions then finish E s [] FTP_PERMISSION reqId (asc "Permission denied") (some .badFile)
      else some (stop s e)
    | some (.ok dir) =>
      match parseAttributes data maxSz i with
      | .ub => none
      | .err _ _ => some (stop s .bufferE)
      | .ok a _ =>
        if E.ok then finish E s [.mkdir dir (mkdirMode a) true] FTP_OK reqId (asc "Created Directory") none
        else finish E s [.mkdir dir (mkdirMode a) false] FTP_FAILURE reqId (asc "Create Directory Error") (some .badFile)

/-- The flags of `open` (src/wolfsftp.c:2419-2449); `O_RDONLY` is 0. -/
def openFlags (reason : Nat) : Flags :=
  { access :=
      if reason.testBit 0 && reason.testBit 1 then .rdwr else if reason.testBit 1 then .wronly else .rdonly
    append := reason.testBit 2
    creat := reason.testBit 3
    trunc := reason.testBit 4
    excl := reason.testBit 5 }

/-- The mode of `open` (src/wolfsftp.c:2473-2485). -/
def openMode (a : Attr) : Nat := safeMode (if a.flags.testBit 2 then a.per else 0o644)

/-- A regular file, by `FILEATRB_PER_MASK_TYPE` and `FILEATRB_PER_FILE` (wolfssh/wolfsftp.h:129-130). -/
def isRegular (st : Stat) : Bool := decide (((ofStat st).per &&& 0o770000) = 0o100000)

/-- A HANDLE packet in new memory. -/
def newHandle (E : Env) (s : Sess) (id : Nat × Nat) : Option (Except Err Bytes) :=
  match E.alloc (HANDLE_ID_SZ + 4 + HEADER) with
  | none => some (.error .memory)
  | some out =>
    match createPacket s FTP_HANDLE out (HANDLE_ID_SZ + 4 + HEADER) (some (encodeId id)) with
    | none => none
    | some (.error _) => some (.error .fatal)
    | some (.ok out) => (read out 0 (HANDLE_ID_SZ + 4 + HEADER)).map .ok

/-- The end of `RecvOpen` once the file is open (src/wolfsftp.c:2502-2562): store the handle and answer with it; whenever
something fails the handle leaves the list again and the file is closed. The result of `close` is ignored. -/
def openStore (E : Env) (s : Sess) (reqId : Nat) (dir : Bytes) (calls : List Call) (fd : Nat) : Option Out :=
  let (id, s) := nextId s
  if addFails E s dir then
    match newStatus E FTP_FAILURE reqId (asc "Internal Failure") with
    | none => none
    | some (.error e) => some ⟨some e, s, calls ++ [.close fd E.ok2], none⟩
    | some (.ok p) => some ⟨some .fatal, s, calls ++ [.close fd E.ok2], some p⟩
  else
    let s := { s with files := ⟨fd, dir, id⟩ :: s.files }
    match newHandle E s id with
    | none => none
    | some (.error e) => some ⟨some e, removeFile s id, calls ++ [.close fd E.ok2], none⟩
    | some (.ok p) => some ⟨none, s, calls, some p⟩

/-- `RecvOpen` from the check for a regular file on (src/wolfsftp.c:2451-2500). -/
def openFile (E : Env) (s : Sess) (reqId : Nat) (dir : Bytes) (reason : Nat) (a : Attr) : Option Out :=
  if (E.stat dir).all isRegular then
    match E.fd with
    | none => finish E s [.stat dir (E.stat dir), .open dir (openFlags reason) (openMode a) none] FTP_FAILURE reqId
        (asc "Open File Error") (some .badFile)
    | some fd => openStore E s reqId dir [.stat dir (E.stat dir), .open dir (openFlags reason) (openMode a) (some fd)] fd
  else finish E s [.stat dir (E.stat dir)] FTP_FAILURE reqId (asc "Not A File") (some .fatal)

/-- `wolfSSH_SFTP_RecvOpen` (src/wolfsftp.c:2332-2565). -/
def recvOpen (E : Env) (s : Sess) (reqId : Nat) (data : Bytes) (maxSz : Nat) : Option Out :=
  match getStr data maxSz 0 with
  | .ub => none
  | .err _ _ => some (stop s .bufferE)
  | .ok p i =>
    match clean E s p with
    | none => none
    | some (.error e) =>
      if e = .permissions then finish E s [] FTP_PERMISSION reqId (asc "Permission denied") (some .badFile)
      else some (stop s .fatal)
    | some (.ok dir) =>
      if capped s.files 0 then
        finish E s [] FTP_FAILURE reqId (asc "Too Many Open File Handles") (some .badFile)
      else
        match getUint32 data maxSz i with
        | .ub => none
        | .err _ _ => some (stop s .bufferE)
        | .ok reason i =>
          match parseAttributes data maxSz i with
          | .ub => none
          | .err _ _ => some (stop s .badFile)
          | .ok a _ => openFile E s reqId dir reason a

/-- The end of `RecvOpenDir` once the directory is open (src/wolfsftp.c:2860-2910): if the packet cannot be allocated the
handle stays in the list. -/
def openDirStore (E : Env) (s : Sess) (dir : Bytes) (d : Nat) : Option Out :=
  if !E.node then some ⟨some .memory, s, [.opendir dir (some d), .closedir d], none⟩
  else
    let (id, s) := nextId s
    let s := { s with dirs := ⟨d, dir, false, id⟩ :: s.dirs }
    match newHandle E s id with
    | none => none
    | some (.error e) => some ⟨some e, s, [.opendir dir (some d)], none⟩
    | some (.ok p) => some ⟨none, s, [.opendir dir (some d)], some p⟩

/-- `wolfSSH_SFTP_RecvOpenDir` (src/wolfsftp.c:2800-2911). -/
def recvOpenDir (E : Env) (s : Sess) (reqId : Nat) (data : Bytes) (maxSz : Nat) : Option Out :=
  match getStr data maxSz 0 with
  | .ub => none
  | .err _ _ => some (stop s .bufferE)
  | .ok p _ =>
    match clean E s p with
    | none => none
    | some (.error e) =>
      if e = .permissions then finish E s [] FTP_PERMISSION reqId (asc "Permission denied") (some .badFile)
      else some (stop s .bufferE)
    | some (.ok dir) =>
      if capped s.dirs 0 then
        finish E s [] FTP_FAILURE reqId (asc "Too Many Open Directory Handles") (some .badFile)
      else
        match E.fd with
        | none => finish E s [.opendir dir none] FTP_NOFILE reqId (asc "Unable To Open Directory") (some .badFile)
        | some d => openDirStore E s dir d

/-- One entry of a listing (`WS_SFTPNAME`). -/
structure Name where
  fName : Bytes
  lName : Bytes
  atrb : Attr
  deriving DecidableEq, Repr

/-- The path `wolfSSH_SFTPNAME_readdir` looks at: `"%s/%s"` resolved (src/wolfsftp.c:3785-3803); `error`: too long. -/
def entryPath (E : Env) (s : Sess) (dirName name : Bytes) : Option (Except Err Bytes) :=
  if dirName.length + 1 + name.length ≥ MAX_FILENAME then some (.error .fatal)
  else
    match realPath s.default (dirName ++ 47 :: name) E.stack with
    | none => none
    | some (some _, _) => some (.error .fatal)
    | some (none, out) => some (.ok (str out))

/-- `wolfSSH_SFTPNAME_readdir` (src/wolfsftp.c:3757-3824) on a name `readdir` delivered: the entry (`none`: it fails) and
the calls. -/
def readEntry (E : Env) (s : Sess) (dirName name : Bytes) : Option (Option Name × List Call) :=
  match entryPath E s dirName name with
  | none => none
  | some (.error _) => some (none, [])
  | some (.ok p) =>
    let a := ((E.stat p).map ofStat).getD {}
    match E.longName name a with
    | none => some (none, [.lstat p (E.stat p)])
    | some l => some (some ⟨name, l, a⟩, [.lstat p (E.stat p)])

/-- The loop of `RecvReadDir` (src/wolfsftp.c:3937-3954): the first failure ends it; `list` is built by prepending. -/
def readEntries (E : Env) (s : Sess) (dir : Nat) (dirName : Bytes) : List Bytes → List Name → List Call →
    Option (List Name × List Call)
  | [], list, calls => some (list, calls ++ [.readdir dir none])
  | n :: ns, list, calls =>
    match readEntry E s dirName n with
    | none => none
    | some (none, cs) => some (list, calls ++ .readdir dir (some n) :: cs)
    | some (some e, cs) => readEntries E s dir dirName ns (e :: list) (calls ++ .readdir dir (some n) :: cs)

/-- The size of the packet (src/wolfsftp.c:3932-3945), a `word32`. -/
def namesSz (list : List Name) : Nat :=
  (4 + HEADER + (list.map fun n => n.fName.length + n.lName.length + 8 + attributesSz n.atrb).sum) % 2 ^ 32

/-- The loop of `wolfSSH_SFTP_SendName` (src/wolfsftp.c:3853-3869); `none` inside: not enough space. -/
def putNames (outSz : Nat) : List Name → Option (Bytes × Nat) → Option (Option (Bytes × Nat))
  | [], m => m.map some
  | n :: ns, m =>
    m.bind fun (out, idx) =>
      if sub32 outSz idx < n.fName.length + n.lName.length + 8 then some none
      else
        putNames outSz ns (setAttributes n.atrb <| putBytes n.lName <| put32 n.lName.length <| putBytes n.fName <|
          put32 n.fName.length (some (out, idx)))

/-- A NAME packet with the entries (`wolfSSH_SFTP_SendName`, src/wolfsftp.c:3832-3874). -/
def newNames (E : Env) (reqId : Nat) (list : List Name) : Option (Except Err Bytes) :=
  match E.alloc (namesSz list) with
  | none => some (.error .memory)
  | some out =>
    match putNames (namesSz list) list (put32 list.length <|
        (setHeader reqId FTP_NAME (sub32 (namesSz list) HEADER) out).map fun out => (out, HEADER)) with
    | none => none
    | some none => some (.error .fatal)
    | some (some (out, idx)) => (read out 0 idx).map .ok

/-- Set the EOF flag of a directory handle. -/
def setEof (s : Sess) (id : Nat × Nat) : Sess :=
  { s with dirs := s.dirs.map fun d => if d.id = id then { d with isEof := true } else d }

/-- `RecvReadDir` with the entries read (src/wolfsftp.c:3956-3997). -/
def answerNames (E : Env) (s : Sess) (reqId : Nat) (d : DirH) (list : List Name) (calls : List Call) : Option Out :=
  if list = [] ∨ d.isEof then
    match newStatus E FTP_EOF reqId (asc "No More Files In Directory") with
    | none => none
    | some (.error e) => some ⟨some e, s, calls, none⟩
    | some (.ok p) => some ⟨none, s, calls, some p⟩
  else
    match newNames E reqId list with
    | none => none
    | some (.error e) => some ⟨some e, setEof s d.id, calls, none⟩
    | some (.ok p) => some ⟨none, setEof s d.id, calls, some p⟩

/-- `wolfSSH_SFTP_RecvReadDir` (src/wolfsftp.c:3879-3998). -/
def recvReadDir (E : Env) (s : Sess) (reqId : Nat) (data : Bytes) (maxSz : Nat) : Option Out :=
  match getSize data maxSz 0 with
  | .ub => none
  | .err _ _ => some (stop s .bufferE)
  | .ok sz i =>
    if sz > MAX_HANDLE then some (stop s .bufferE)
    else if sz ≠ HANDLE_ID_SZ then some (stop s .fatal)
    else
      match optPair true data maxSz i with
      | .ub => none
      | .err _ _ => some (stop s .bufferE)
      | .ok id _ =>
        match s.dirs.find? fun d => decide (d.id = id) with
        | none => some (stop s .fatal)
        | some d =>
          if d.isEof then answerNames E s reqId d [] []
          else
            match readEntries E s d.dir d.name E.entries [] [] with
            | none => none
            | some (list, calls) => answerNames E s reqId d list calls

/-- `wolfSSH_SFTP_RecvCloseDir` (src/wolfsftp.c:4001-4058): the directory handle that leaves the list. -/
def closeDir (s : Sess) (id : Nat × Nat) : Option (DirH × Sess) :=
  (s.dirs.find? fun d => decide (d.id = id)).map fun d =>
    (d, { s with dirs := s.dirs.eraseP fun d => decide (d.id = id) })

/-- `wolfSSH_SFTP_RecvClose` (src/wolfsftp.c:4723-4818). -/
def recvClose (E : Env) (s : Sess) (reqId : Nat) (data : Bytes) (maxSz : Nat) : Option Out :=
  if maxSz < 4 then some (stop s .bufferE)
  else
    match data with
    | a :: b :: c :: d :: rest =>
      let sz := ato32 a b c d
      if add32 sz 4 > maxSz ∨ sz > MAX_HANDLE then some (stop s .bufferE)
      else if sz ≠ HANDLE_ID_SZ then finish E s [] FTP_FAILURE reqId (asc "Close File Error") (some .badFile)
      else
        match decodeId (rest.take 8) with
        | none => none
        | some id =>
          match closeDir s id with
          | some (d, s) => finish E s [.closedir d.dir] FTP_OK reqId (asc "Closed File") none
          | none =>
            match findFile s id with
            | none => finish E s [] FTP_FAILURE reqId (asc "Close File Error") (some .badFile)
            | some f =>
              if E.ok then finish E (removeFile s id) [.close f.fd true] FTP_OK reqId (asc "Closed File") none
              else finish E (removeFile s id) [.close f.fd false] FTP_FAILURE reqId (asc "Close File Error") (some .badFile)
    | _ => none

/-- `wResolveOffset` (wolfssh/port.h:721-736) with `WOLFSSH_MAX_FILE_OFFSET` for a 64-bit `off_t` (1609): low word first;
`none`: the offset is out of range. -/
def resolveOffset (ofst : Nat × Nat) : Option Nat :=
  let combined := (ofst.2 <<< 32) ||| ofst.1
  if combined > 0x7FFFFFFFFFFFFFFF then none else some combined

/-- `wPwrite` (src/port.c:197-207): the calls and the result. -/
def wPwrite (E : Env) (fd : Nat) (data : Bytes) (ofst : Nat × Nat) (i : Nat) : List Call × Int :=
  match resolveOffset ofst with
  | none => ([], -1)
  | some o => ([.pwrite fd data o (E.pwrites i data.length)], E.pwrites i data.length)

/-- `wPread` (src/port.c:210-220): the calls and what was read. -/
def wPread (E : Env) (fd : Nat) (n : Nat) (ofst : Nat × Nat) : List Call × Option Bytes :=
  match resolveOffset ofst with
  | none => ([], none)
  | some o => ([.pread fd n o (E.pread n)], E.pread n)

/-- The loop of `RecvWrite` (src/wolfsftp.c:4290-4307): the calls, the last result and `written`. `i` counts the calls,
`fuel` bounds the iterations (each but the last writes at least one byte). -/
def writeLoop (E : Env) (fd : Nat) (str : Bytes) : Nat → Nat → Nat → Nat × Nat → List Call → List Call × Int × Nat
  | 0, _, written, _, calls => (calls, 0, written)
  | fuel + 1, i, written, ofst, calls =>
    if written < str.length then
      let w := wPwrite E fd (str.drop written) ofst i
      if w.2 ≤ 0 then (calls ++ w.1, w.2, written)
      else
        let n := w.2.toNat
        let lo := add32 ofst.1 n
        writeLoop E fd str fuel (i + 1) (add32 written n) (lo, if lo < n then add32 ofst.2 1 else ofst.2) (calls ++ w.1)
    else (calls, 0, written)

/-- `RecvWrite` with the handle found (src/wolfsftp.c:4277-4333). -/
def writeFile (E : Env) (s : Sess) (reqId : Nat) (data : Bytes) (maxSz i : Nat) (fd : Nat) : Option Out :=
  match optPair true data maxSz i with
  | .ub => none
  | .err _ _ => some (stop s .bufferE)
  | .ok ofst i =>
    match getStr data maxSz i with
    | .ub => none
    | .err _ _ => some (stop s .bufferE)
    | .ok str _ =>
      let (calls, r, written) := writeLoop E fd str (str.length + 1) 0 0 (ofst.2, ofst.1) []
      if r < 0 ∨ written ≠ str.length then finish E s calls FTP_FAILURE reqId (asc "Write File Error") (some .invalidState)
      else finish E s calls FTP_OK reqId (asc "Write File Success") none

/-- `wolfSSH_SFTP_RecvWrite` (src/wolfsftp.c:4221-4341). -/
def recvWrite (E : Env) (s : Sess) (reqId : Nat) (data : Bytes) (maxSz : Nat) : Option Out :=
  match getStr data maxSz 0 with
  | .ub => none
  | .err _ _ => finish E s [] FTP_FAILURE reqId (asc "Write File Error") (some .bufferE)
  | .ok h i =>
    if h.length ≠ HANDLE_ID_SZ then finish E s [] FTP_FAILURE reqId (asc "Write File Error") (some .badFile)
    else
      match decodeId h with
      | none => none
      | some id =>
        match findFile s id with
        | none => finish E s [] FTP_FAILURE reqId (asc "Write File Error") (some .badFile)
        | some f => writeFile E s reqId data maxSz i f.fd

/-- The status of `RecvRead` (src/wolfsftp.c:4544-4563): `out` is the memory for the data, if already allocated, and its
size; a larger one is allocated if the status does not fit. -/
def readStatus (E : Env) (s : Sess) (calls : List Call) (status reqId : Nat) (msg : Bytes) (ret : Option Err)
    (out : Option Bytes) (allocSz : Nat) : Option Out :=
  match out with
  | none => finish E s calls status reqId msg ret
  | some out =>
    if statusSz msg english > allocSz then finish E s calls status reqId msg ret
    else
      match createStatus status reqId msg english out (statusSz msg english) with
      | none => none
      | some (.error _) => some ⟨some .fatal, s, calls, none⟩
      | some (.ok (out, outSz)) => (read out 0 outSz).map fun p => ⟨ret, s, calls, some p⟩

/-- `RecvRead` with the handle found (src/wolfsftp.c:4499-4570). `pread` stores what it returns behind the place of the
header. -/
def readFile (E : Env) (s : Sess) (reqId : Nat) (data : Bytes) (maxSz i : Nat) (fd : Nat) : Option Out :=
  match optPair true data maxSz i with
  | .ub => none
  | .err _ _ => some (stop s .bufferE)
  | .ok ofst i =>
    match getUint32 data maxSz i with
    | .ub => none
    | .err _ _ => some (stop s .bufferE)
    | .ok strSz _ =>
      if strSz > MAX_RW then some (stop s .bufferE)
      else
        let allocSz := strSz + HEADER + 4
        match E.alloc allocSz with
        | none => some (stop s .memory)
        | some out =>
          let r := wPread E fd strSz (ofst.2, ofst.1)
          let calls := r.1
          match r.2 with
          | none => readStatus E s calls FTP_FAILURE reqId (asc "Read File Error") (some .badFile) (some out) allocSz
          | some d =>
            match write out 13 d with
            | none => none
            | some out =>
              if d.length > strSz then
                readStatus E s calls FTP_FAILURE reqId (asc "Read File Error") (some .badFile) (some out) allocSz
              else if d.length = 0 then readStatus E s calls FTP_EOF reqId (asc "Read EOF") none (some out) allocSz
              else
                match createPacket s FTP_DATA out (d.length + HEADER + 4) none with
                | none => none
                | some (.error _) => none
                | some (.ok out) => (read out 0 (d.length + HEADER + 4)).map fun p => ⟨none, s, calls, some p⟩

/-- `wolfSSH_SFTP_RecvRead` (src/wolfsftp.c:4444-4571). -/
def recvRead (E : Env) (s : Sess) (reqId : Nat) (data : Bytes) (maxSz : Nat) : Option Out :=
  match getStr data maxSz 0 with
  | .ub => none
  | .err _ _ => some (stop s .bufferE)
  | .ok h i =>
    if h.length ≠ HANDLE_ID_SZ then readStatus E s [] FTP_FAILURE reqId (asc "Read File Error") (some .badFile) none 0
    else
      match decodeId h with
      | none => none
      | some id =>
        match findFile s id with
        | none => readStatus E s [] FTP_FAILURE reqId (asc "Read File Error") (some .badFile) none 0
        | some f => readFile E s reqId data maxSz i f.fd

/-- `wolfSSH_SFTP_RecvRemove` (src/wolfsftp.c:4826-4899). -/
def recvRemove (E : Env) (s : Sess) (reqId : Nat) (data : Bytes) (maxSz : Nat) : Option Out :=
  match getStr data maxSz 0 with
  | .ub => none
  | .err _ _ => some (stop s .bufferE)
  | .ok p _ =>
    if p.length > MAX_FILENAME then some (stop s .bufferE)
    else
      match clean E s p with
      | none => none
      | some (.error e) =>
        if e = .permissions then finish E s [] FTP_PERMISSION reqId (asc "Permission denied") (some .badFile)
        else finish E s [] FTP_FAILURE reqId (asc "Remove File Error") (some e)
      | some (.ok name) =>
        if E.ok then finish E s [.remove name true] FTP_OK reqId (asc "Removed File") none
        else finish E s [.remove name false] FTP_FAILURE reqId (asc "Remove File Error") (some .badFile)

/-- The failure of `RecvRename` before the call (src/wolfsftp.c:4930-4968). -/
def renameFail (E : Env) (s : Sess) (reqId : Nat) (e : Err) : Option Out :=
  if e = .permissions then finish E s [] FTP_PERMISSION reqId (asc "Permission denied") (some .badFile)
  else finish E s [] FTP_FAILURE reqId (asc "Rename File Error") (some e)

/-- `wolfSSH_SFTP_RecvRename` (src/wolfsftp.c:4906-4979). -/
def recvRename (E : Env) (s : Sess) (reqId : Nat) (data : Bytes) (maxSz : Nat) : Option Out :=
  match getStr data maxSz 0 with
  | .ub => none
  | .err _ _ => renameFail E s reqId .bufferE
  | .ok p i =>
    match clean E s p with
    | none => none
    | some (.error e) => renameFail E s reqId e
    | some (.ok old) =>
      match getStr data maxSz i with
      | .ub => none
      | .err _ _ => renameFail E s reqId .bufferE
      | .ok q _ =>
        match clean E s q with
        | none => none
        | some (.error e) => renameFail E s reqId e
        | some (.ok name) =>
          if E.ok then finish E s [.rename old name true] FTP_OK reqId (asc "Renamed File") none
          else finish E s [.rename old name false] FTP_FAILURE reqId (asc "Rename File Error") (some .badFile)

/-- The end of `RecvFSTAT`, `RecvSTAT` and `RecvLSTAT`: an ATTRS packet or a status. -/
def answerStat (E : Env) (s : Sess) (reqId : Nat) (calls : List Call) (res : Option Stat) (msg : Bytes) : Option Out :=
  match res with
  | none => finish E s calls FTP_FAILURE reqId msg (some .badFile)
  | some st =>
    match newAttrs E reqId (ofStat st) with
    | none => none
    | some (.error e) => some ⟨some e, s, calls, none⟩
    | some (.ok p) => some ⟨none, s, calls, some p⟩

/-- `wolfSSH_SFTP_RecvFSTAT` (src/wolfsftp.c:5771-5858). -/
def recvFstat (E : Env) (s : Sess) (reqId : Nat) (data : Bytes) (maxSz : Nat) : Option Out :=
  match getStr data maxSz 0 with
  | .ub => none
  | .err _ _ => some (stop s .bufferE)
  | .ok h _ =>
    if h.length ≠ HANDLE_ID_SZ then some (stop s .badFile)
    else
      match decodeId h with
      | none => none
      | some id =>
        match findFile s id with
        | none => some (stop s .badFile)
        | some f => answerStat E s reqId [.fstat f.fd E.fstat] E.fstat (asc "STAT error")

/-- `wolfSSH_SFTP_RecvSTAT` (src/wolfsftp.c:5864-5948) and `wolfSSH_SFTP_RecvLSTAT` (5955-6040, `link`). -/
def recvStat (link : Bool) (E : Env) (s : Sess) (reqId : Nat) (data : Bytes) (maxSz : Nat) : Option Out :=
  match getStr data maxSz 0 with
  | .ub => none
  | .err _ _ => some (stop s .bufferE)
  | .ok p _ =>
    match clean E s p with
    | none => none
    | some (.error e) =>
      if e = .permissions then finish E s [] FTP_PERMISSION reqId (asc "Permission denied") (some .badFile)
      else finish E s [] FTP_FAILURE reqId (if link then asc "LSTAT error" else asc "STAT error") (some .badFile)
    | some (.ok name) =>
      if link then answerStat E s reqId [.lstat name (E.stat name)] (E.stat name) (asc "LSTAT error")
      else answerStat E s reqId [.stat name (E.stat name)] (E.stat name) (asc "STAT error")

/-- `SFTP_SetFileAttributes` (src/wolfsftp.c:6074-6111) and `SFTP_SetFileAttributesHandle` (6116-6164): the mode; the size
and the owner are not implemented, `WSETTIME` and `WFSETTIME` are 0. `chmod` builds the call for a result. -/
def setAttrCalls (E : Env) (a : Attr) (chmod : Nat → Bool → Call) : List Call × Bool :=
  if a.flags.testBit 2 then ([chmod (safeMode a.per) E.ok], E.ok) else ([], true)

/-- The end of `RecvSetSTAT` and `RecvFSetSTAT` with the object found (src/wolfsftp.c:6216-6234, 6292-6313). -/
def setStat (E : Env) (s : Sess) (reqId : Nat) (data : Bytes) (maxSz i : Nat) (chmod : Nat → Bool → Call) : Option Out :=
  match parseAttributes data maxSz i with
  | .ub => none
  | .err _ _ => finish E s [] FTP_FAILURE reqId (asc "Unable to parse attributes error") (some .badFile)
  | .ok a _ =>
    let (calls, ok) := setAttrCalls E a chmod
    if ok then finish E s calls FTP_OK reqId (asc "Set Attributes") none
    else finish E s calls FTP_FAILURE reqId (asc "Unable to set attributes error") (some .badFile)

/-- `wolfSSH_SFTP_RecvSetSTAT` (src/wolfsftp.c:6170-6235). -/
def recvSetStat (E : Env) (s : Sess) (reqId : Nat) (data : Bytes) (maxSz : Nat) : Option Out :=
  match getStr data maxSz 0 with
  | .ub => none
  | .err _ _ => some (stop s .bufferE)
  | .ok p i =>
    match clean E s p with
    | none => none
    | some (.error e) =>
      if e = .permissions then finish E s [] FTP_PERMISSION reqId (asc "Permission denied") (some .badFile)
      else finish E s [] FTP_FAILURE reqId (asc "Unable to set attributes error") (some .badFile)
    | some (.ok name) => setStat E s reqId data maxSz i (fun m r => .chmod name m r)

/-- `wolfSSH_SFTP_RecvFSetSTAT` (src/wolfsftp.c:6242-6320). -/
def recvFsetStat (E : Env) (s : Sess) (reqId : Nat) (data : Bytes) (maxSz : Nat) : Option Out :=
  match getStr data maxSz 0 with
  | .ub => none
  | .err _ _ => some (stop s .bufferE)
  | .ok h i =>
    if h.length ≠ HANDLE_ID_SZ then
      finish E s [] FTP_FAILURE reqId (asc "Unable to set attributes error") (some .badFile)
    else
      match decodeId h with
      | none => none
      | some id =>
        match findFile s id with
        | none => finish E s [] FTP_FAILURE reqId (asc "Unable to set attributes error") (some .badFile)
        | some f => setStat E s reqId data maxSz i (fun m r => .fchmod f.fd m r)

/-- The start path `RecvRealPath` finds if none is set (src/wolfsftp.c:1493-1519): `getcwd`, resolved, and stored by
`wolfSSH_SFTP_SetDefaultPath`, which resolves it again. -/
def realStart (E : Env) (s : Sess) : Option (Except Err Bytes) :=
  match s.default with
  | some d => some (.ok d)
  | none =>
    match E.cwd with
    | none => some (.error .invalidPath)
    | some wd =>
      match realPath none wd E.stack with
      | none => none
      | some (some e, _) => some (.error e)
      | some (none, out) => canonicalizePath E.cwd (str out)

/-- The memory of the reply: the request's own if it is large enough (src/wolfsftp.c:1558-1563). -/
def realOut (E : Env) (data : Bytes) (outSz maxSz : Nat) : Option Bytes :=
  if outSz > maxSz then E.alloc outSz else some data

/-- The NAME packet with one entry without attributes (src/wolfsftp.c:1551-1591). -/
def realReply (E : Env) (reqId : Nat) (p data : Bytes) (maxSz : Nat) : Option (Except Err Bytes) :=
  let outSz := HEADER + 12 + p.length * 2 + attributesSz {}
  match realOut E data outSz maxSz with
  | none => some (.error .memory)
  | some out =>
    (setAttributes {} <| putBytes p <| put32 p.length <| putBytes p <| put32 p.length <| put32 1 <|
      (setHeader reqId FTP_NAME (sub32 outSz HEADER) out).map fun out => (out, HEADER)).bind fun (out, _) =>
        (read out 0 outSz).map .ok

/-- The call `RecvRealPath` makes if no start path is set. -/
def realCalls (E : Env) (s : Sess) : List Call := if s.default = none then [.getcwd E.cwd] else []

/-- `wolfSSH_SFTP_RecvRealPath` (src/wolfsftp.c:1463-1592). -/
def recvRealPath (E : Env) (s : Sess) (reqId : Nat) (data : Bytes) (maxSz : Nat) : Option Out :=
  match getStr data maxSz 0 with
  | .ub => none
  | .err _ _ => some (stop s .bufferE)
  | .ok r _ =>
    if r.length ≥ MAX_FILENAME then some (stop s .bufferE)
    else
      match realStart E s with
      | none => none
      | some (.error e) => finish E s (realCalls E s) FTP_FAILURE reqId (asc "Directory error") (some e)
      | some (.ok d) =>
        match realPath (some d) (str r) E.stack with
        | none => none
        | some (some e, _) => some ⟨some e, { s with default := some d }, realCalls E s, none⟩
        | some (none, out) =>
          match realReply E reqId (str out) data maxSz with
          | none => none
          | some (.error e) => some ⟨some e, { s with default := some d }, realCalls E s, none⟩
          | some (.ok p) => some ⟨none, { s with default := some d }, realCalls E s, some p⟩

/-- Any other type (src/wolfsftp.c:1775-1812): a status written over the request, in new memory if that is too small. -/
def recvUnknown (E : Env) (s : Sess) (reqId : Nat) (data : Bytes) : Option Out :=
  let sz := statusSz (asc "Unknown/Unsupported packet type") english
  match (if sz > data.length then (E.alloc sz).map fun m => (m, sz) else some (data, data.length)) with
  | none => some (stop s .fatal)
  | some (buf, bufSz) =>
    match createStatus FTP_FAILURE reqId (asc "Unknown/Unsupported packet type") english buf bufSz with
    | none => none
    | some (.error e) => some (stop s e)
    | some (.ok (out, outSz)) => (read out 0 outSz).map fun p => ⟨none, s, [], some p⟩

/-- The dispatch of `wolfSSH_SFTP_read` (src/wolfsftp.c:1674-1774), by the types of wolfssh/wolfsftp.h:39-71. `ssh->reqId`
was set when the header came in (1655). -/
def handle (E : Env) (s : Sess) (type : Nat) (reqId : Nat) (data : Bytes) : Option Out :=
  let maxSz := data.length
  let s := { s with reqId := reqId }
  if type = 16 then recvRealPath E s reqId data maxSz
  else if type = 15 then recvRmdir E s reqId data maxSz
  else if type = 14 then recvMkdir E s reqId data maxSz
  else if type = 17 then recvStat false E s reqId data maxSz
  else if type = 7 then recvStat true E s reqId data maxSz
  else if type = 8 then recvFstat E s reqId data maxSz
  else if type = 3 then recvOpen E s reqId data maxSz
  else if type = 5 then recvRead E s reqId data maxSz
  else if type = 6 then recvWrite E s reqId data maxSz
  else if type = 4 then recvClose E s reqId data maxSz
  else if type = 13 then recvRemove E s reqId data maxSz
  else if type = 18 then recvRename E s reqId data maxSz
  else if type = 9 then recvSetStat E s reqId data maxSz
  else if type = 10 then recvFsetStat E s reqId data maxSz
  else if type = 11 then recvOpenDir E s reqId data maxSz
  else if type = 12 then recvReadDir E s reqId data maxSz
  else recvUnknown E s reqId data

end Wolf.Sftp
