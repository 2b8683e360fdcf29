import Verif.Model.SftpClient
/-!
# The SFTP client: listing a directory (`wolfSSH_SFTP_LS`)

Conventions as in `Verif.Model.SftpClient`. Simplified besides: what a given-up listing leaves in `ssh->realState`,
`ssh->readDirState` and `ssh->nameState` is not carried into the next one; the list that comes back is empty where the C code
returns `NULL`.
-/

namespace Wolf.SftpLs
open Wolf Wolf.Wire Wolf.Sftp Wolf.SftpClient

/-- `WS_SFTPNAME` (wolfssh/wolfsftp.h:152-160): `fName`, `lName` (empty: `NULL`), `atrb`. -/
structure Entry where
  name : Bytes
  long : Bytes
  atr : Attr

/-- `WS_SFTP_NAME_STATE` (src/wolfsftp.c:192-196): reading the header, a status, the names. Without a state: `head []`. -/
inductive Nm where
  | head (got : Bytes)
  | status (sz : Nat) (got : Bytes)
  | body (sz : Nat) (got : Bytes)
  deriving DecidableEq, Repr

/-- How `wolfSSH_SFTP_DoName` comes back: not yet; with `NULL` and a state; with names, the last one of the packet first. -/
inductive Named where
  | more (s : Nm)
  | null (s : Nm)
  | names (l : List Entry)
  | ub

/-- The loop over the entries (src/wolfsftp.c:7204-7264); `n` is the list so far. -/
def entries (buf : Bytes) : Nat → Nat → List Entry → Res (List Entry)
  | 0, i, n => .ok n i
  | count + 1, i, n =>
    andThen (getStr buf buf.length i) fun name i =>
    andThen (getStr buf buf.length i) fun long i =>
    andThen (parseAttributes buf buf.length i) fun atr i =>
    entries buf count i (⟨name, long, atr⟩ :: n)

/-- `WOLFSSH_MAX_SFTP_NAME` (wolfssh/wolfsftp.h:186). -/
def MAX_NAME : Nat := 1024 * 1024

/-- `SFTP_NAME_GETHEADER_PACKET` without a header (src/wolfsftp.c:7094-7106). -/
def noHeader (c : Chan) (got : Bytes) : Chan × Named :=
  if notice c.err then (c, .null (.head got))
  else (if c.err = none then { c with err := some .bufferE } else c, .null (.head []))

/-- `SFTP_NAME_GET_PACKET` with the body read (src/wolfsftp.c:7188-7275). -/
def takeNames (c : Chan) (buf : Bytes) : Chan × Named :=
  match getUint32 buf buf.length 0 with
  | .ub => (c, .ub)
  | .err .. => ({ c with err := some .bufferE }, .null (.head []))
  | .ok count i =>
    match entries buf count i [] with
    | .ub => (c, .ub)
    | .err .. => (c, .null (.head []))
    | .ok [] _ => (c, .null (.head []))
    | .ok l _ => (c, .names l)

/-- `wolfSSH_SFTP_DoName` (src/wolfsftp.c:7064-7279), one read. -/
def nameStep (k : Nat) (err : Ret) (c : Chan) : Nm → Chan × Named
  | .head got =>
    match getHeader k err c got with
    | (c, .short got) => noHeader c got
    | (c, .bad _) => noHeader c []
    | (c, .ok type id sz) =>
      if sz > MAX_NAME then ({ c with err := some .bufferE }, .null (.head []))
      else if id ≠ c.reqId then (c, .null (.head []))
      else if type = 104 then ({ c with reqId := add32 c.reqId 1 }, .more (.body sz []))
      else if type = 101 then (c, .more (.status sz []))
      else (c, .null (.head []))
  | .status sz got =>
    let r := bufRead sz k err c got
    if r.1 then
      match doStatus r.2.2 with
      | .ok code _ => (if code = FTP_OK then r.2.1 else { r.2.1 with err := some .fatal }, .null (.head []))
      | .err .. => ({ r.2.1 with err := some .fatal }, .null (.head []))
      | .ub => (r.2.1, .ub)
    else (r.2.1, .null (if notice r.2.1.err then .status sz r.2.2 else .head []))
  | .body sz got =>
    let r := bufRead sz k err c got
    if r.1 then takeNames r.2.1 r.2.2
    else (r.2.1, .null (if notice r.2.1.err then .body sz r.2.2 else .head []))

/-- The notices for which `wolfSSH_SFTP_LS` keeps its state (src/wolfsftp.c:7509-7511 and others). -/
def keep (err : Ret) : Bool := want err ∨ err = some .rekeying

/-- `WS_SFTP_LS_STATE` (src/wolfsftp.c:239-244) with the states of `wolfSSH_SFTP_RealPath`, `wolfSSH_SFTP_ReadDir` and
`wolfSSH_SFTP_Close` in it. -/
inductive Ph where
  | realSend
  | realName (s : Nm)
  | opendir (name : Bytes)
  | handle (h : Hd)
  | dirSend (h : Hd) (acc : List Entry)
  | dirName (h : Hd) (acc : List Entry) (s : Nm)
  | close (h : Hd) (acc : List Entry) (s : Close)

/-- A call: on its way, at its end, or in undefined behaviour. -/
inductive Call where
  | at (c : Chan) (p : Ph)
  | done (c : Chan) (l : List Entry)
  | ub

/-- Back with `NULL`: called again at `p`, or given up. -/
def back (c : Chan) (p : Ph) : Call := if keep c.err then .at c p else .done c []

/-- `wolfSSH_SFTP_RealPath` (src/wolfsftp.c:9130-9165) with `STATE_LS_REALPATH` (7505-7518); the name is that of the first in the
list. -/
def realNamed (r : Chan × Named) : Call :=
  match r with
  | (c, .more s) => .at c (.realName s)
  | (c, .null s) => if keep c.err then .at (recall c) (.realName s) else .done c []
  | (c, .names []) => .done c []
  | (c, .names (e :: _)) => .at c (.opendir e.name)
  | (_, .ub) => .ub

/-- `STATE_LS_GETHANDLE` (src/wolfsftp.c:7537-7549). -/
def gotHandle (r : Chan × GhOut) : Call :=
  match r with
  | (c, h, .more g) => .at { c with gh := some g } (.handle h)
  | (c, h, .again g) => back { c with gh := some g } (.handle h)
  | (c, h, .ret (some _)) => .at { c with gh := none } (.dirSend h [])
  | (c, h, .ret none) => back { c with gh := none } (.handle h)
  | (_, _, .ub) => .ub

/-- `STATE_LS_READDIR` (src/wolfsftp.c:7551-7589) behind `wolfSSH_SFTP_DoName`. -/
def dirNamed (h : Hd) (acc : List Entry) (r : Chan × Named) : Call :=
  match r with
  | (c, .more s) => .at c (.dirName h acc s)
  | (c, .null s) => if keep c.err then .at (recall c) (.dirName h acc s) else .at c (.close h acc .send)
  | (c, .names l) => .at c (.dirSend h (acc ++ l))
  | (_, .ub) => .ub

/-- `STATE_LS_CLOSE` (src/wolfsftp.c:7592-7608) and the end (7614-7618). -/
def closed (h : Hd) (acc : List Entry) (r : Chan × Out Close Unit) : Call :=
  match r with
  | (c, .more s) => .at c (.close h acc s)
  | (c, .again s) => back c (.close h acc s)
  | (c, .ret (some _)) => .done c acc
  | (c, .ret none) => back c (.close h acc .send)
  | (_, .ub) => .ub

/-- One step of `wolfSSH_SFTP_LS` for `dir` (src/wolfsftp.c:7481-7619), with `wolfSSH_SFTP_ReadDir` (8822-8872) and
`wolfSSH_SFTP_OpenDir` (9173-9181), which refuses a `NULL` name. -/
def step (dir : Bytes) (s : Call) (ev : Ev) : Call :=
  match s with
  | .at c .realSend =>
    match ev with
    | .send res err _ =>
      match sendType res err 16 dir c with
      | (c, none) => .at c .realSend
      | (c, some true) => .at (recall c) (.realName (.head []))
      | (c, some false) => back c .realSend
    | _ => .at c .realSend
  | .at c (.realName n) =>
    match ev with
    | .read k err => realNamed (nameStep k err c n)
    | _ => .at c (.realName n)
  | .at c (.opendir name) =>
    if name = [] then back c (.opendir name)
    else
      match ev with
      | .send res err _ =>
        match sendType res err 11 name c with
        | (c, none) => .at c (.opendir name)
        | (c, some true) => .at c (.handle Hd.fresh)
        | (c, some false) => back c (.opendir name)
      | _ => .at c (.opendir name)
  | .at c (.handle h) =>
    match ev with
    | .read k err => gotHandle (ghStep k err c h (c.gh.getD (.head [])))
    | _ => .at c (.handle h)
  | .at c (.dirSend h acc) =>
    match ev with
    | .send res err _ =>
      match sendType res err 12 h.handle c with
      | (c, none) => .at c (.dirSend h acc)
      | (c, some true) => .at (recall c) (.dirName h acc (.head []))
      | (c, some false) => if keep c.err then .at c (.dirSend h acc) else .at c (.close h acc .send)
    | _ => .at c (.dirSend h acc)
  | .at c (.dirName h acc n) =>
    match ev with
    | .read k err => dirNamed h acc (nameStep k err c n)
    | _ => .at c (.dirName h acc n)
  | .at c (.close h acc s) => closed h acc (closeStep h.handle ev c s)
  | .done c l => .done c l
  | .ub => .ub

/-- A call from beginning to end. -/
def run (dir : Bytes) (c : Chan) (evs : List Ev) : Call := evs.foldl (step dir) (.at c .realSend)

end Wolf.SftpLs
