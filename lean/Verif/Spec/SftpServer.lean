import Verif.Model.Sftp
import Verif.Spec.Sftp
/-!
# The SFTP server: what the environment guarantees, sessions, handles, files
-/

namespace Spec.Sftp
open Wolf Wolf.Sftp Spec.Wire Spec.Path

/-- What the environment guarantees: memory has the size that was asked for, `pread` and `pwrite` do not transfer more than
they should, names in directories are C strings, and a directory has less than four million entries (`RecvReadDir` keeps the
size of its reply in 32 bits). -/
structure Good (E : Env) : Prop where
  alloc : ∀ n m, E.alloc n = some m → m.length = n
  stack : E.stack.length = 256
  cwd : ∀ d, E.cwd = some d → 0 ∉ d
  pread : ∀ n d, E.pread n = some d → d.length ≤ n
  pwrites : ∀ i n, E.pwrites i n ≤ n
  entries : ∀ n ∈ E.entries, 0 ∉ n
  few : E.entries.length ≤ 4000000
  longName : ∀ n a l, E.longName n a = some l → l.length ≤ n.length + 100

/-- The start path and the jail of the session are the directories `d` and `j`. -/
structure Dirs (s : Sess) (d j : Option (List Bytes)) : Prop where
  default : s.default = d.map render
  confine : s.confine = j.map render
  dNames : ∀ cs, d = some cs → ∀ c ∈ cs, Spec.Path.Name c
  jNames : ∀ cs, j = some cs → ∀ c ∈ cs, Spec.Path.Name c

/-- Numbers of 32 bits. -/
def Id (i : Nat × Nat) : Prop := i.1 < 2 ^ 32 ∧ i.2 < 2 ^ 32

/-- All ids are numbers of 32 bits. -/
structure Ids (s : Sess) : Prop where
  files : ∀ f ∈ s.files, Id f.id
  dirs : ∀ f ∈ s.dirs, Id f.id
  next : Id s.nextId

/-- The open file a handle designates. -/
def fileOf (s : Sess) (h : Bytes) : Option FileH := s.files.find? fun f => decide (encodeId f.id = h)

/-- The open directory a handle designates. -/
def dirOf (s : Sess) (h : Bytes) : Option DirH := s.dirs.find? fun f => decide (encodeId f.id = h)

/-- The mode of a new directory or file. -/
def newMode (dflt : Nat) (a : Attrs) : Nat := (a.perm.getD dflt) &&& 0o777

/-- The place a name in the directory `cs` designates. -/
def place (cs : List Bytes) (name : Bytes) : Bytes := render (resolve cs (components name))

/-- The largest offset of a file. -/
def maxOff : Nat := 0x7FFFFFFFFFFFFFFF

/-- Bytes stored at an offset of a file (`none`: nothing there). -/
def store (f : Nat → Option UInt8) (off : Nat) (d : Bytes) : Nat → Option UInt8 :=
  fun i => if off ≤ i ∧ i < off + d.length then d[i - off]? else f i

/-- What a call does to the contents of the file with descriptor `fd`. -/
def applyCall (fd : Nat) (f : Nat → Option UInt8) : Posix.Call → Nat → Option UInt8
  | .pwrite fd' d off res => if fd' = fd then store f off (d.take res.toNat) else f
  | _ => f

/-- The start directory of the session: the one that is set, or the current directory of the process. -/
def startDir (d : Option (List Bytes)) (cwd : Option Bytes) : Option (List Bytes) :=
  match d with
  | some cs => some cs
  | none => cwd.map fun w => resolve [] (components w)

/-- The paths on the way to the current directory are short. -/
def cwdShort (d : Option (List Bytes)) (cwd : Option Bytes) : Prop :=
  d = none → ∀ w, cwd = some w → ∀ k, (render (resolve [] ((components w).take k))).length < 256

/-- The file or directory is in the jail. -/
def Inside (j : Option (List Bytes)) (isLink : Bytes → Bool) (p : Bytes) : Prop :=
  ∃ cs, Canonical p cs ∧ Confined j isLink cs

/-- The paths a call passes to the file system. -/
def paths : Posix.Call → List Bytes
  | .rmdir p _ | .mkdir p _ _ | .remove p _ | .stat p _ | .lstat p _ | .chmod p _ _ | .open p _ _ _ | .opendir p _ => [p]
  | .rename p q _ => [p, q]
  | _ => []

/-- The mode a call gives to a file or directory. -/
def modes : Posix.Call → List Nat
  | .mkdir _ m _ | .chmod _ m _ | .fchmod _ m _ | .open _ _ m _ => [m]
  | _ => []

/-- The descriptor a call works on. -/
def fds : Posix.Call → List Nat
  | .fstat fd _ | .fchmod fd _ _ | .pwrite fd _ _ _ | .pread fd _ _ _ => [fd]
  | _ => []

/-- The descriptors calls opened and closed; the directories. -/
def opened : Posix.Call → List Nat
  | .open _ _ _ (some fd) => [fd]
  | _ => []
def closed : Posix.Call → List Nat
  | .close fd _ => [fd]
  | _ => []
def openedDir : Posix.Call → List Nat
  | .opendir _ (some d) => [d]
  | _ => []
def closedDir : Posix.Call → List Nat
  | .closedir d => [d]
  | _ => []

/-- Every allocation succeeds. -/
structure Rich (E : Env) : Prop where
  alloc : ∀ n, (E.alloc n).isSome
  node : E.node = true

/-- The server replies `r` to request `id`, or there is not enough memory. -/
def Says (E : Env) (o : Out) (id : Nat) (r : Reply) : Prop := o.reply = some (r.packet id) ∨ o.reply = none ∧ ¬ Rich E

/-- The server replies with a status code. -/
def Status (E : Env) (o : Out) (id code : Nat) : Prop := ∃ m l, Says E o id (.status code m l)

/-- The attributes of a file. -/
def attrsOf (st : Posix.Stat) : Attrs :=
  { size := some (st.size % 2 ^ 64), owner := some (st.uid % 2 ^ 32, st.gid % 2 ^ 32), perm := some (st.mode % 2 ^ 32),
    times := some (st.atime % 2 ^ 32, st.mtime % 2 ^ 32) }

/-- A request: its type, its id, the bytes that follow, and what the server meets while it works on it. -/
structure Req where
  E : Env
  type : Nat
  id : Nat
  body : Bytes

/-- A request and its outcome. -/
abbrev Event := Req × Out

/-- The server, in state `s` at first, worked on these requests and is in state `s'` now. -/
inductive Trace (s : Sess) : List Event → Sess → Prop
  | nil : Trace s [] s
  | snoc {t s' r o} : Trace s t s' → Good r.E → r.id < 2 ^ 32 → r.body.length < 2 ^ 32 → handle r.E s' r.type r.id r.body = some o →
      Trace s (t ++ [(r, o)]) o.st

/-- A new session with the start directory `d` and the jail `j`. -/
structure Fresh (s : Sess) (d j : Option (List Bytes)) : Prop where
  dirs : Dirs s d j
  noFiles : s.files = []
  noDirs : s.dirs = []
  first : s.nextId = (0, 0)

/-- A session with the start directory `d` and the jail `j`, at any time before request 2 ^ 64. -/
structure Reached (d j : Option (List Bytes)) (t : List Event) (s : Sess) : Prop where
  from_ : ∃ s0 d0, Fresh s0 d0 j ∧ Trace s0 t s
  few : t.length < 2 ^ 64
  dirs : Dirs s d j

/-- The calls of all requests. -/
def callsOf (t : List Event) : List Posix.Call := t.flatMap (·.2.calls)

/-- The handle the client was given. -/
def granted (e : Event) : Option Bytes :=
  match e.2.reply.bind decode with
  | some (_, .handle h) => some h
  | _ => none

/-- The handle in the body of a CLOSE request. -/
def closing (e : Event) : Option Bytes := if e.1.type = 4 then (string e.1.body).map (·.1) else none

/-- What the handles a client was given stand for: each for what was opened when it was given, until it is closed. -/
def grant (new : Posix.Call → List Nat) (m : Bytes → Option Nat) (e : Event) : Bytes → Option Nat :=
  match granted e, e.2.calls.flatMap new with
  | some h, fd :: _ => fun h' => if h' = h then some fd else m h'
  | _, _ => fun h' => if closing e = some h' then none else m h'

/-- The files, the directories. -/
def held (t : List Event) : Bytes → Option Nat := t.foldl (grant opened) fun _ => none
def heldDir (t : List Event) : Bytes → Option Nat := t.foldl (grant openedDir) fun _ => none

/-- A READDIR request for the handle `h` that was answered with names. -/
def Lists (e : Event) (h : Bytes) : Prop :=
  e.1.type = 12 ∧ (string e.1.body).map (·.1) = some h ∧ ∃ l, e.2.reply.bind decode = some (e.1.id, .names l)

/-- The reply a request of some type may get: a status, or what section 6 of the draft has for it. -/
def Kind (type : Nat) : Reply → Prop
  | .status .. => True
  | .handle _ => type = 3 ∨ type = 11
  | .data _ => type = 5
  | .names _ => type = 12 ∨ type = 16
  | .attrs _ => type = 7 ∨ type = 8 ∨ type = 17

/-- The body of a request matches the grammar of its type (section 6). -/
def Parses (type : Nat) (body : Bytes) : Prop :=
  if type = 3 then ∃ p r pf r' a, string body = some (p, r) ∧ uint32 r = some (pf, r') ∧ Sftp.attrs r' = some a
  else if type = 5 then ∃ h r off r' n, string body = some (h, r) ∧ uint64 r = some (off, r') ∧ uint32 r' = some n
  else if type = 6 then ∃ h r off r' dat, string body = some (h, r) ∧ uint64 r = some (off, r') ∧ string r' = some dat
  else if type = 9 ∨ type = 10 ∨ type = 14 then ∃ p r a, string body = some (p, r) ∧ Sftp.attrs r = some a
  else if type = 18 then ∃ p r q, string body = some (p, r) ∧ string r = some q
  else if type = 4 ∨ type = 7 ∨ type = 8 ∨ type = 11 ∨ type = 12 ∨ type = 13 ∨ type = 15 ∨ type = 16 ∨ type = 17 then
    ∃ p, string body = some p
  else True

end Spec.Sftp
