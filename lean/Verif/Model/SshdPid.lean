import Verif.Model.ScpMsg
/-!
# The daemon's PID file (apps/wolfsshd/configuration.c:1844-1936, POSIX)

What stands at the file's name does not change while the function runs. Whether a system call succeeds is an input.
-/

namespace Wolf.SshdPid
open Wolf
open Wolf.Scp (dec)

/-- A file: whether it is a regular one, its names, owner, mode and bytes. -/
structure Inode where
  reg : Bool
  nlink : Nat
  uid : Nat
  mode : Nat
  data : Bytes
  deriving DecidableEq, Repr

/-- What a name stands for: a file, or a symbolic link to one. -/
inductive Entry where
  | file (i : Inode)
  | link (target : Inode)
  deriving DecidableEq, Repr

/-- `WOLFSSH_HAVE_SYMLINK`, and whether `WOLFSSH_O_NOFOLLOW` is not zero (wolfssh/port.h:1619-1660); the daemon's user and process;
which calls succeed; owner and mode of new files; what `fwrite` and `fclose` say, and how many bytes are in the file if one of them
fails. -/
structure Env where
  symlinks : Bool
  nofollow : Bool
  euid : Nat
  pid : Nat
  creates : Bool
  newUid : Nat
  newMode : Nat
  reopens : Bool
  fstat : Bool
  fchmod : Bool
  ftruncate : Bool
  fdopen : Bool
  fwrite : Nat
  fclose : Bool
  got : Nat
  unlink : Bool
  deriving DecidableEq, Repr

/-- Calls on the descriptor. -/
inductive Act where
  | opened | closed
  deriving DecidableEq, Repr

/-- What is left at the name, and the calls. -/
structure Out where
  dir : Option Entry
  acts : List Act
  deriving DecidableEq, Repr

/-- The two calls of `open` (configuration.c:1873-1884): the name afterwards, the file, and `created`. -/
def openPid (e : Env) (d : Option Entry) : Option (Option Entry × Inode × Bool) :=
  match d with
  | none =>
    if e.creates then some (some (.file ⟨true, 1, e.newUid, e.newMode, []⟩), ⟨true, 1, e.newUid, e.newMode, []⟩, true) else none
  | some (.file i) => if e.reopens then some (d, i, false) else none
  | some (.link t) => if e.nofollow then none else if e.reopens then some (d, t, false) else none

/-- The file behind the descriptor is changed. -/
def put (d : Option Entry) (i : Inode) : Option Entry :=
  match d with
  | none => none
  | some (.file _) => some (.file i)
  | some (.link _) => some (.link i)

/-- `unlink`. -/
def remove (e : Env) (d : Option Entry) : Option Entry := if e.unlink then none else d

/-- `wolfSSHD_ConfigSavePID` (configuration.c:1844-1936) from `fdopen` (1913) on; `i` is the file, which is empty. -/
def writePid (e : Env) (d : Option Entry) (i : Inode) : Option Entry :=
  if e.fdopen = false then remove e (put d i)
  else
    let buf := (dec e.pid).take 11
    if e.fwrite = buf.length ∧ e.fclose = true then put d { i with data := buf }
    else remove e (put d { i with data := buf.take e.got })

/-- `wolfSSHD_ConfigSavePID` (configuration.c:1844-1936) with a name set. -/
def savePid (e : Env) (d : Option Entry) : Out :=
  if e.symlinks = true ∧ e.nofollow = false ∧ (match d with | some (.link _) => true | _ => false) = true then ⟨d, []⟩
  else match openPid e d with
  | none => ⟨d, []⟩
  | some (d, i, created) =>
    if e.fstat = false ∨ i.reg = false ∨ i.nlink ≠ 1 ∨ (i.uid ≠ e.euid ∧ i.uid ≠ 0) then ⟨d, [.opened, .closed]⟩
    else if e.fchmod = false then ⟨if created then remove e d else d, [.opened, .closed]⟩
    else if e.ftruncate = false then ⟨if created then remove e (put d { i with mode := 0o644 }) else put d { i with mode := 0o644 }, [.opened, .closed]⟩
    else ⟨writePid e (put d { i with mode := 0o644, data := [] }) { i with mode := 0o644, data := [] }, [.opened, .closed]⟩

end Wolf.SshdPid
