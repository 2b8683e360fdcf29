import Verif.Model.Basic
/-!
# The relay of a shell in wolfsshd

`SHELL_Subsystem` (apps/wolfsshd/wolfsshd.c:1522-2164): the loop between the client's channel and the shell or command,
and what is still sent after it. Everything outside is a choice of the environment in each turn: what the child wrote and
whether it is running, what `select` and the reads and writes report, what `wolfSSH_worker` received, and what the sends
of the library do. The child's stdin never blocks for good, and `errno` is a choice too, since the code looks at it after
reads that do not set it.
-/

namespace Wolf.SshdShell
open Wolf (Byte Bytes)

/-- `WOLFSSHD_SHELL_BUFFER_SZ` (apps/wolfsshd/wolfsshd.c:1532-1535). -/
def bufSz : Nat := 32768

/-- `WOLFSSHD_SHELL_FLUSH_TRIES` (apps/wolfsshd/wolfsshd.c:1437-1439). -/
def flushTries : Nat := 10

/-- What `wolfSSH_ChannelIdSend` and `wolfSSH_extended_data_send` do with `k` bytes, `k > 0`: they take at least one and
at most all of them, or nothing (src/internal.c:20256-20373, 20376-20496). -/
inductive Send where
  | sent (n : Nat)  -- `min (n + 1) k` of them
  | again           -- `WS_WINDOW_FULL` or `WS_REKEYING`
  | wantWrite
  | fail
  deriving DecidableEq, Repr

/-- What `wolfSSH_worker` does (src/ssh.c:3390-3466): it may have received data for the shell's channel, or its end, even if it
reports something else, since a stalled write or a key exchange hides that (src/ssh.c:3424-3428, 3449-3452). -/
inductive Work where
  | data (b : Bytes)
  | other                     -- data for another channel
  | closed
  | wantWrite (b : Bytes) (eof : Bool)
  | rekeying (b : Bytes) (eof : Bool)
  | wantRead
  | success (eof : Bool)      -- some other message; the channel is at its end
  | fail
  deriving DecidableEq, Repr

inductive Sel where
  | intr | fail
  | ok (ssh out err : Bool)
  deriving DecidableEq, Repr

/-- A read from the child: at most `n + 1` bytes; or it fails. -/
inductive Rd where
  | got (n : Nat)
  | fail
  deriving DecidableEq, Repr

/-- The environment of one turn of the loop. -/
structure Env where
  out : Bytes := []        -- written by the child since the last turn
  err : Bytes := []
  outEnd : Bool := false   -- no one can write any more
  errEnd : Bool := false
  running : Bool := true   -- `ChildRunning` at the head of the loop
  running2 : Bool := true  -- and at its end
  keying : Bool := false
  sel : Sel := .ok true true true
  work : Work := .wantRead
  readFails : Bool := false   -- `wolfSSH_ChannelIdRead` could not credit the window
  toChild : Option Nat := some 1000000   -- the write to the child: `min (n + 1)` of the bytes, or it fails
  resend : Send := .sent 1000000
  errRd : Rd := .got 1000000
  errnoE : Bool := false   -- `errno` is neither zero nor `EAGAIN` after the read of stderr
  errSend : Send := .sent 1000000
  outRd : Rd := .got 1000000
  errnoO : Bool := false
  outSend : Send := .sent 1000000

inductive Fate where
  | done   -- the loop ended because its condition is false
  | broke
  deriving DecidableEq, Repr

/-- The variables of the loop (apps/wolfsshd/wolfsshd.c:1543-1556), the pipes and the channel's buffer, and what was
written, sent, received and handed over so far. -/
structure St where
  held : Bytes := []        -- the first `windowFull` bytes of `shellBuffer`
  ext : Bool := false       -- `windowFullExt`
  wantWrite : Bool := false
  peer : Bool := true       -- `peerConnected`
  outEmpty : Bool := false  -- `stdoutEmpty`
  stdin : Bool := true      -- `stdinPipe[1]` is open
  chan : Bytes := []        -- received for the shell's channel, not read
  eof : Bool := false
  outPipe : Bytes := []     -- written by the child, not read
  errPipe : Bytes := []
  outOpen : Bool := true
  errOpen : Bool := true
  wroteOut : Bytes := []
  wroteErr : Bytes := []
  sentOut : Bytes := []
  sentErr : Bytes := []
  rcvd : Bytes := []
  given : Bytes := []
  dropped : Bool := false   -- bytes of the child were read and a send of them failed
  fate : Option Fate := none
  deriving DecidableEq

/-- What the child does between two turns. -/
def child (s : St) (e : Env) : St :=
  { s with
    outPipe := if s.outOpen then s.outPipe ++ e.out else s.outPipe,
    wroteOut := if s.outOpen then s.wroteOut ++ e.out else s.wroteOut,
    outOpen := s.outOpen && !e.outEnd,
    errPipe := if s.errOpen then s.errPipe ++ e.err else s.errPipe,
    wroteErr := if s.errOpen then s.wroteErr ++ e.err else s.wroteErr,
    errOpen := s.errOpen && !e.errEnd }

def stop (s : St) : St := { s with fate := some .broke }

/-- The data of the client's channel goes to the child (apps/wolfsshd/wolfsshd.c:1886-1907). -/
def input (s : St) (e : Env) : Bool × St :=
  let d := s.chan.take bufSz
  let s := { s with chan := s.chan.drop bufSz }
  if d = [] ∨ e.readFails then (false, stop s)
  else if s.stdin then
    match e.toChild with
    | some n => (true, { s with given := s.given ++ d.take (n + 1) })
    | none => (false, stop s)
  else (false, stop s)

def recv (s : St) (b : Bytes) : St := { s with chan := s.chan ++ b, rcvd := s.rcvd ++ b }

/-- `wolfSSH_worker` and what follows it (apps/wolfsshd/wolfsshd.c:1868-1944); `false`: `continue` or `break`. -/
def worker (pipes : Bool) (s : St) (e : Env) : Bool × St :=
  let s := { s with wantWrite := false }
  match e.work with
  | .data b => if s.held = [] then input (recv s b) e else (true, recv s b)
  | .other => (true, s)
  | .closed => (false, { s with peer := false })
  | .wantWrite b eof => (false, { recv s b with wantWrite := true, eof := s.eof || eof })
  | .rekeying b eof => (false, { recv s b with wantWrite := true, eof := s.eof || eof })
  | .wantRead => (true, s)
  | .success eof =>
    let s := { s with eof := s.eof || eof }
    (true, if s.eof && pipes then { s with stdin := false } else s)
  | .fail => (false, stop s)

/-- How many of `k` bytes a send takes. -/
def took (n k : Nat) : Nat := min (n + 1) k

def log (s : St) (ext : Bool) (b : Bytes) : St :=
  if ext then { s with sentErr := s.sentErr ++ b } else { s with sentOut := s.sentOut ++ b }

/-- What is held is sent again (apps/wolfsshd/wolfsshd.c:1946-1977). -/
def resend (s : St) (e : Env) : Bool × St :=
  if s.held = [] then (true, s)
  else match e.resend with
  | .again => (false, s)
  | .wantWrite => (false, { s with wantWrite := true })
  | .fail => (false, { stop s with dropped := true })
  | .sent n =>
    let k := took n s.held.length
    let s' : St := { log s s.ext (s.held.take k) with held := s.held.drop k }
    if s'.held ≠ [] then (false, s') else (true, { s' with ext := false })

/-- Bytes just read from the child are sent; what is not taken is held. -/
def forward (s : St) (ext : Bool) (b : Bytes) (r : Send) : Bool × St :=
  match r with
  | .sent n =>
    let k := took n b.length
    let s := log s ext (b.take k)
    if k < b.length then (!ext, { s with held := b.drop k, ext := ext }) else (true, s)
  | .again => (false, { s with held := b, ext := ext })
  | .wantWrite => (false, { s with held := b, ext := ext, wantWrite := true })
  | .fail => (false, { stop s with dropped := true })

/-- stderr (apps/wolfsshd/wolfsshd.c:1980-2017): any read without bytes is judged by `errno`. -/
def stderr (s : St) (e : Env) : Bool × St :=
  match e.errRd with
  | .fail => if e.errnoE then (false, stop s) else (true, s)
  | .got n =>
    if s.errPipe = [] then (if e.errnoE then (false, stop s) else (true, s))
    else
      let k := min (n + 1) bufSz
      forward { s with errPipe := s.errPipe.drop k } true (s.errPipe.take k) e.errSend

/-- stdout, or the terminal (apps/wolfsshd/wolfsshd.c:2019-2066, 2070-2106). -/
def stdout (s : St) (e : Env) : Bool × St :=
  match e.outRd with
  | .fail => if e.errnoO then (false, stop s) else (true, s)
  | .got n =>
    if s.outPipe = [] then (true, { s with outEmpty := true })
    else
      let k := min (n + 1) bufSz
      forward { s with outPipe := s.outPipe.drop k } false (s.outPipe.take k) e.outSend

/-- The end of a turn (apps/wolfsshd/wolfsshd.c:2109-2111). -/
def check (s : St) (e : Env) : St :=
  if !e.running2 && s.peer && s.outEmpty && s.held == [] then { s with peer := false } else s

/-- The reads of a turn. A pipe is ready when it has bytes or can have no more. -/
def reads (pipes : Bool) (s : St) (e : Env) (out err : Bool) : St :=
  let r1 := if pipes && err && (s.errPipe != [] || !s.errOpen) then stderr s e else (true, s)
  if r1.1 then
    let r2 := if out && (r1.2.outPipe != [] || !r1.2.outOpen) then stdout r1.2 e else (true, r1.2)
    if r2.1 then check r2.2 e else r2.2
  else r1.2

/-- A turn once it is known what is ready. -/
def body (pipes : Bool) (s : St) (e : Env) (ssh out err : Bool) : St :=
  let r1 := if s.wantWrite || s.held != [] || ssh then worker pipes s e else (true, s)
  if r1.1 then
    let r2 := resend r1.2 e
    if r2.1 then reads pipes r2.2 e out err else r2.2
  else r1.2

/-- A turn of the loop (apps/wolfsshd/wolfsshd.c:1824-2112); `pipes`: there is no terminal or a command is forced. With data
of the client pending (`wolfSSH_stream_peek`, src/ssh.c:1183-1207) `select` is not called and no pipe is read. -/
def turn (pipes : Bool) (s : St) (e : Env) : St :=
  let s := child s e
  if e.running || s.held != [] || !s.outEmpty || s.peer then
    if s.chan = [] ∨ e.keying ∨ s.eof then
      match e.sel with
      | .intr => s
      | .fail => stop s
      | .ok ssh out err => body pipes s e ssh out err
    else body pipes s e true false false
  else { s with fate := some .done }

/-- The loop. -/
def run (pipes : Bool) : List Env → St → St
  | [], s => s
  | e :: es, s => if s.fate = none then run pipes es (turn pipes s e) else s

/-- `SHELL_FlushOut` (apps/wolfsshd/wolfsshd.c:1444-1514): how much of the bytes goes out; `sends`: what the tries do, and
whether the worker fails after one that must wait. -/
def flushOut : Nat → List (Send × Bool) → Bytes → Bytes
  | _, _, [] => []
  | 0, _, _ => []
  | _ + 1, [], _ => []
  | t + 1, (r, bad) :: rs, b =>
    match r with
    | .fail => []
    | .sent n => b.take (took n b.length) ++ flushOut t rs (b.drop (took n b.length))
    | _ => if bad then [] else flushOut t rs b

/-- What is left when the loop ended and the child was waited for (apps/wolfsshd/wolfsshd.c:2133-2158). -/
structure Fin where
  child : Env := {}
  outNonblock : Bool := true
  errNonblock : Bool := true
  outSends : List (Send × Bool) := []
  errSends : List (Send × Bool) := []

def finish (pipes : Bool) (s : St) (f : Fin) : St :=
  let s := child s f.child
  if pipes then
    let s := if f.outNonblock then { s with
        sentOut := s.sentOut ++ flushOut flushTries f.outSends (s.outPipe.take bufSz), outPipe := s.outPipe.drop bufSz } else s
    if f.errNonblock then { s with
        sentErr := s.sentErr ++ flushOut flushTries f.errSends (s.errPipe.take bufSz), errPipe := s.errPipe.drop bufSz } else s
  else s

end Wolf.SshdShell
