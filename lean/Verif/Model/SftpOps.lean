import Verif.Model.SftpClient
/-!
# The SFTP client: removing, renaming, making directories, setting attributes

`wolfSSH_SFTP_Rename`, `_Remove`, `_RMDIR`, `_MKDIR`, `_SetSTAT`, `_CHMOD`, in the same style as `Wolf.SftpClient`: one step is one
call of a lower layer, and a function that comes back with its state kept and a notice in `ssh->error` is called again at once
with the same arguments.

Simplified: as in `Wolf.SftpClient`.
-/

namespace Wolf.SftpOps
open Wolf Wolf.Wire Wolf.Sftp Wolf.SftpClient
open Wolf.Path (oct2dec)

/-- What the application asks for. -/
inductive Op where
  | rename (old new : Bytes)
  | remove (path : Bytes)
  | rmdir (path : Bytes)
  | mkdir (path : Bytes)
  | setstat (path : Bytes) (a : Attr)
  | chmod (path oct : Bytes)
  deriving DecidableEq, Repr

/-! ## `SFTP_STAT` -/

/-- Attributes as `SFTP_ParseAttributes_buffer` fills them in: at an index; stopped; undefined behaviour. -/
inductive Fill where
  | on (a : Attr) (i : Nat)
  | stop (a : Attr)
  | ub

/-- One `GetUint32` of `SFTP_ParseAttributes_buffer` (src/wolfsftp.c:6859-6928), if the flag `bit` is set. -/
def Fill.word (buf : Bytes) (bit : Nat) (set : Nat → Attr → Attr) : Fill → Fill
  | .on a i =>
    if a.flags.testBit bit then
      match getUint32 buf buf.length i with
      | .ok v i => .on (set v a) i
      | .err .. => .stop a
      | .ub => .ub
    else .on a i
  | f => f

/-- The attributes behind a `SFTP_ParseAttributes_buffer` (src/wolfsftp.c:6859-6928) that fails: cleared, and filled in as far as it
got. -/
def fillAttrs (buf : Bytes) : Fill :=
  match getUint32 buf buf.length 0 with
  | .ub => .ub
  | .err .. => .stop {}
  | .ok flags i =>
    Fill.on { flags := flags } i
      |>.word buf 0 (fun v a => { a with sz1 := v }) |>.word buf 0 (fun v a => { a with sz0 := v })
      |>.word buf 1 (fun v a => { a with uid := v }) |>.word buf 1 (fun v a => { a with gid := v })
      |>.word buf 2 (fun v a => { a with per := v })
      |>.word buf 3 (fun v a => { a with atime := v }) |>.word buf 3 (fun v a => { a with mtime := v })
      |>.word buf 31 (fun v a => { a with extCount := v })

/-- `STATE_LSTAT_CHECK_REQ_ID` (src/wolfsftp.c:7763-7774): the state is kept. -/
def lookCheck (c : Chan) (type id sz : Nat) : Chan × Out Stat Attr :=
  if id ≠ c.reqId then (c, .again (.check type id sz))
  else ({ c with reqId := add32 c.reqId 1 }, .more (.body type sz []))

/-- `STATE_LSTAT_PARSE_REPLY` (src/wolfsftp.c:7775-7823) with the body read. If the attributes do not parse: a new body is read if
`ssh->error` still holds `WS_WANT_READ` or `WS_WANT_WRITE`, else success. A status that is OK leaves the attributes as the caller
cleared them. -/
def lookReply (c : Chan) (type sz : Nat) (got : Bytes) : Out Stat Attr :=
  if type = 105 then
    match parseAttributes got got.length 0 with
    | .ok a _ => .ret (some a)
    | .err .. =>
      if want c.err then .again (.body type sz [])
      else
        match fillAttrs got with
        | .on a _ => .ret (some a)
        | .stop a => .ret (some a)
        | .ub => .ub
    | .ub => .ub
  else if type = 101 then
    match doStatus got with
    | .ok code _ => if code = FTP_OK then .ret (some {}) else .ret none
    | .err .. => .ret none
    | .ub => .ub
  else .ret none

/-- `SFTP_STAT` for `path` (src/wolfsftp.c:7689-7842), `kind` being 17 for `wolfSSH_SFTP_STAT` and 7 for `wolfSSH_SFTP_LSTAT`. -/
def lookStep (kind : Byte) (path : Bytes) (ev : Ev) (c : Chan) : Stat → Chan × Out Stat Attr
  | .send =>
    match ev with
    | .send res err _ =>
      match sendType res err kind path c with
      | (c, none) => (c, .more .send)
      | (c, some true) => (c, .more (.head []))
      | (c, some false) => if notice c.err then (c, .again .send) else (c, .ret none)
    | _ => (c, .more .send)
  | .head got =>
    match ev with
    | .read k err =>
      match getHeader k err c got with
      | (c, .short got) => if notice c.err then (c, .again (.head got)) else (c, .ret none)
      | (c, .bad _) => if notice c.err then (c, .again (.head [])) else (c, .ret none)
      | (c, .ok type id sz) => lookCheck c type id sz
    | _ => (c, .more (.head got))
  | .check type id sz => lookCheck c type id sz
  | .body type sz got =>
    match ev with
    | .read k err =>
      let r := bufRead sz k err c got
      if r.1 then (r.2.1, lookReply r.2.1 type sz r.2.2)
      else if notice r.2.1.err then (r.2.1, .again (.body type sz r.2.2)) else (r.2.1, .ret none)
    | _ => (c, .more (.body type sz got))

/-! ## Requests -/

/-- `SFTP_SetAttributes` (src/wolfsftp.c:1145-1188) into a buffer of `SFTP_AttributesSz` (1101-1138) bytes. -/
def attrBytes (a : Attr) : Bytes :=
  c32toa a.flags ++ (if a.flags.testBit 0 then c32toa a.sz1 ++ c32toa a.sz0 else []) ++
    (if a.flags.testBit 1 then c32toa a.uid ++ c32toa a.gid else []) ++ (if a.flags.testBit 2 then c32toa a.per else []) ++
    (if a.flags.testBit 3 then c32toa a.atime ++ c32toa a.mtime else []) ++ (if a.flags.testBit 31 then c32toa a.extCount else [])

/-- The request of `wolfSSH_SFTP_Rename` (src/wolfsftp.c:9242-9288). -/
def renamePacket (id : Nat) (old new : Bytes) : Bytes := header 18 id (old.length + new.length + 8) ++ str old ++ str new

/-- The request of `wolfSSH_SFTP_MKDIR` (src/wolfsftp.c:8694-8733), whatever attributes it is given. -/
def mkdirPacket (id : Nat) (path : Bytes) : Bytes := header 14 id (path.length + 12) ++ str path ++ c32toa 4 ++ c32toa 0o777

/-- The request of `wolfSSH_SFTP_SetSTAT` (src/wolfsftp.c:7904-7942). -/
def setstatPacket (id : Nat) (path : Bytes) (a : Attr) : Bytes :=
  header 9 id (path.length + attributesSz a + 4) ++ str path ++ attrBytes a

/-! ## Sending a request and reading its status -/

/-- Sending a buffer of the function's own; sending with `SendPacketType`; reading a header; a status. -/
inductive Ex where
  | raw (buf : Bytes) (idx : Nat)
  | typed
  | head (got : Bytes)
  | status (sz : Nat) (got : Bytes)
  deriving DecidableEq, Repr

/-- Does the function keep its state? `wolfSSH_SFTP_Rename` asks for `WS_WANT_READ` and `WS_WANT_WRITE`, the others for
`NoticeError` (src/wolfsftp.c:443-450). -/
def Op.keeps : Op → Ret → Bool
  | .rename .., err => want err
  | _, err => notice err

/-- A header of a reply. `Rename` (src/wolfsftp.c:9314-9351): the id is checked, then the type; a packet that is only a header ends
the call with `ret == 0`. `MKDIR` (8752-8782): the type, then the id. `SetSTAT`, `CHMOD` (7960-7975): the type. `Remove` (9463-9477),
`RMDIR` (9549-9562): the type, and the state is kept if there is a notice. -/
def exHead (o : Op) (c : Chan) : Header → Chan × Out Ex Unit
  | .short got => (c, if o.keeps c.err then .again (.head got) else .ret none)
  | .bad zero =>
    (c, if o.keeps c.err then .again (.head [])
      else match o with
        | .rename .. => if zero then .ret (some ()) else .ret none
        | _ => .ret none)
  | .ok type id sz =>
    match o with
    | .rename .. =>
      if id ≠ c.reqId then ({ c with err := some .fatal }, .ret none)
      else
        let c := { c with reqId := add32 c.reqId 1 }
        if type ≠ 101 then ({ c with err := some .fatal }, .ret none) else (c, .more (.status sz []))
    | .mkdir .. =>
      if type ≠ 101 then (c, .ret none)
      else if id ≠ c.reqId then (c, .ret none) else ({ c with reqId := add32 c.reqId 1 }, .more (.status sz []))
    | .setstat .. | .chmod .. => if type ≠ 101 then (c, .ret none) else (c, .more (.status sz []))
    | .remove .. | .rmdir .. =>
      if type ≠ 101 then (c, if notice c.err then .again (.head []) else .ret none) else (c, .more (.status sz []))

/-- The type and the string of the requests that `SendPacketType` makes: `Remove` (src/wolfsftp.c:9451-9453), `RMDIR` (9539-9541). -/
def Op.typed : Op → Byte × Bytes
  | .remove p => (13, p)
  | .rmdir p => (15, p)
  | _ => (0, [])

/-- A request and its status: `Rename` (src/wolfsftp.c:9290-9387), `Remove` (9450-9508), `RMDIR` (9538-9589), `MKDIR` (8735-8803),
`SetSTAT` (7944-8009); `wolfSSH_SFTP_buffer_send_finish` (634-661). -/
def exStep (o : Op) (ev : Ev) (c : Chan) : Ex → Chan × Out Ex Unit
  | .raw buf idx =>
    match ev with
    | .send (.error _) err _ => ({ c with err := err }, if o.keeps err then .again (.raw buf idx) else .ret none)
    | .send (.ok k) err pending =>
      let s := sendSome k err c buf idx
      if s.2 < buf.length ∨ pending then ({ s.1 with err := some .wantWrite }, .again (.raw buf s.2)) else (s.1, .more (.head []))
    | _ => (c, .more (.raw buf idx))
  | .typed =>
    match ev with
    | .send res err _ =>
      match sendType res err o.typed.1 o.typed.2 c with
      | (c, none) => (c, .more .typed)
      | (c, some true) => (c, .more (.head []))
      | (c, some false) => (c, if o.keeps c.err then .again .typed else .ret none)
    | _ => (c, .more .typed)
  | .head got =>
    match ev with
    | .read k err =>
      let r := getHeader k err c got
      exHead o r.1 r.2
    | _ => (c, .more (.head got))
  | .status sz got =>
    match ev with
    | .read k err =>
      let r := bufRead sz k err c got
      if r.1 then
        match doStatus r.2.2 with
        | .ok code _ => (r.2.1, if code = FTP_OK then .ret (some ()) else .ret none)
        | .err .. => (r.2.1, .ret none)
        | .ub => (r.2.1, .ub)
      else (r.2.1, if o.keeps r.2.1.err then .again (.status sz r.2.2) else .ret none)
    | _ => (c, .more (.status sz got))

/-! ## The functions -/

/-- Where a call stands: finding out about the file first (`Rename`, `Remove`, `CHMOD`), with what a `wolfSSH_SFTP_SetSTAT` left in
`ssh->setatrState`; the request itself, with the attributes found. -/
inductive Ph where
  | look (s : Stat) (left : Option Ex)
  | ex (a : Attr) (e : Ex)
  deriving DecidableEq, Repr

/-- A call: under way; over, with success or not; undefined behaviour. -/
inductive Call where
  | at (c : Chan) (p : Ph)
  | done (c : Chan) (ok : Bool)
  | ub
  deriving DecidableEq, Repr

/-- The type and path of the request that comes first: `wolfSSH_SFTP_STAT` in `Rename` (src/wolfsftp.c:9231) and `CHMOD` (7650),
`wolfSSH_SFTP_LSTAT` in `Remove` (9440). -/
def Op.look : Op → Option (Byte × Bytes)
  | .rename old _ => some (17, old)
  | .remove p => some (7, p)
  | .chmod p _ => some (17, p)
  | _ => none

/-- The request itself, with the attributes found. `CHMOD` sets `atr.per` and leaves the rest (src/wolfsftp.c:7657-7670). -/
def ask (o : Op) (c : Chan) (a : Attr) : Option Ex :=
  match o with
  | .rename old new => some (.raw (renamePacket c.reqId old new) 0)
  | .remove _ => some .typed
  | .rmdir _ => some .typed
  | .mkdir p => some (.raw (mkdirPacket c.reqId p) 0)
  | .setstat p a => some (.raw (setstatPacket c.reqId p a) 0)
  | .chmod p oct =>
    match oct2dec oct with
    | .ok mode => some (.raw (setstatPacket c.reqId p { a with per := mode }) 0)
    | .error _ => none

/-- A new call (src/wolfsftp.c:7624-7646, 7878-7902, 8669-8693, 9191-9228, 9412-9437, 9518-9537). -/
def enter (o : Op) (c : Chan) : Call :=
  match o.look with
  | some _ => .at (recall c) (.look .send none)
  | none =>
    match ask o c {} with
    | some e => .at c (.ex {} e)
    | none => .done c false

/-- Called again: `Rename` (src/wolfsftp.c:9202) and `Remove` (9424) first clear a notice. -/
def Op.recall (o : Op) (c : Chan) : Chan :=
  match o with
  | .rename .. | .remove .. => SftpClient.recall c
  | _ => c

/-- Finding out about the file (src/wolfsftp.c:7648-7671, 9230-9240, 9438-9448). -/
def lookPh (o : Op) (left : Option Ex) (r : Chan × Out Stat Attr) : Call :=
  match r with
  | (c, .more s) => .at c (.look s left)
  | (c, .again s) => if o.keeps c.err then .at (recall c) (.look s left) else .done c false
  | (c, .ret none) => if o.keeps c.err then .at (recall c) (.look .send left) else .done c false
  | (c, .ret (some a)) =>
    match ask o c a with
    | some e => .at c (.ex a (left.getD e))
    | none => .done c false
  | (_, .ub) => .ub

/-- The request. `CHMOD` (src/wolfsftp.c:7673-7684) keeps its own state only for `WS_WANT_READ` and `WS_WANT_WRITE`; for another
notice it starts anew when it is called again, `ssh->setatrState` being kept. -/
def exPh (o : Op) (a : Attr) (r : Chan × Out Ex Unit) : Call :=
  match r with
  | (c, .more e) => .at c (.ex a e)
  | (c, .again e) =>
    match o with
    | .chmod .. => if want c.err then .at c (.ex a e) else .at c (.look .send (some e))
    | _ => .at (o.recall c) (.ex a e)
  | (c, .ret (some _)) => .done c true
  | (c, .ret none) =>
    match o with
    | .chmod .. =>
      if want c.err then
        match ask o c a with
        | some e => .at c (.ex a e)
        | none => .done c false
      else .done c false
    | _ => .done c false
  | (_, .ub) => .ub

/-- One step of a call. -/
def step (o : Op) (s : Call) (ev : Ev) : Call :=
  match s with
  | .at c (.look s left) =>
    match o.look with
    | some (kind, path) => lookPh o left (lookStep kind path ev c s)
    | none => .ub
  | .at c (.ex a e) => exPh o a (exStep o ev c e)
  | .done c ok => .done c ok
  | .ub => .ub

/-- A call from beginning to end. -/
def run (o : Op) (c : Chan) (evs : List Ev) : Call := evs.foldl (step o) (enter o c)

end Wolf.SftpOps
