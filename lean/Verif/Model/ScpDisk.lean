import Verif.Model.Scp
/-!
# SCP: the default receive callback

Models `wsScpRecvCallback` (/repo/src/wolfscp.c:2381-2677) as it is built for POSIX systems (`WOLFSSH_HAVE_SYMLINK`,
`WOLFSSH_SCP_FD_UTIMES`), and as much of a POSIX file system as it needs. Paths in the file system are lists of names from the
root and lead through no links. Permissions to access are not modelled; instead every operation may fail (`DiskIn`).
The directory the process is in is a path: other processes do not move or remove the directories that a transfer is in, or
the file it writes.
-/

namespace Wolf.Scp

/-- A place in the file system. -/
abbrev Place := List Bytes

/-- What may be at a place. A file has contents and, if they were set, times (modification, access). A link leads, over other
links if need be, to the place `to`. -/
inductive Node where
  | dir (mode : Nat)
  | file (data : Bytes) (times : Option (Nat × Nat))
  | link (to : Place)
  deriving DecidableEq, Repr

abbrev Fs := Place → Option Node

def Fs.put (fs : Fs) (p : Place) (n : Node) : Fs := fun q => if q = p then some n else fs q

/-- The components of a path as the system sees it. -/
def comps : Bytes → List Bytes
  | [] => [[]]
  | b :: bs =>
    if b = 47 then [] :: comps bs
    else match comps bs with
      | [] => [[b]]
      | c :: cs => (b :: c) :: cs

/-- Components that name no entry of a directory. -/
def isDots (c : Bytes) : Bool := decide (c = []) || decide (c = [46]) || decide (c = [46, 46])

/-- Following the components from a directory, through links. -/
def walk (fs : Fs) : Place → List Bytes → Option Place
  | at_, [] => some at_
  | at_, c :: cs =>
    if c = [] ∨ c = [46] then walk fs at_ cs
    else if c = [46, 46] then walk fs at_.dropLast cs
    else match fs (at_ ++ [c]) with
      | some (.dir _) => walk fs (at_ ++ [c]) cs
      | some (.link to) => match fs to with
        | some (.dir _) => walk fs to cs
        | _ => none
      | _ => none

/-- Where a path starts. -/
def origin (cwd : Place) (s : Bytes) : Place := if s.head? = some 47 then [] else cwd

/-- Where `chdir` leads. -/
def chdir (fs : Fs) (cwd : Place) (s : Bytes) : Option Place :=
  if s = [] then none else walk fs (origin cwd s) (comps s)

/-- The place of the last component of a path, which need not exist; the directories before are followed. -/
def leaf (fs : Fs) (cwd : Place) (s : Bytes) : Option Place :=
  match (comps s).getLast? with
  | none => none
  | some l => if isDots l then none else (walk fs (origin cwd s) (comps s).dropLast).map (· ++ [l])

/-- `wIsSymlink` (src/port.c:723-744). -/
def isSymlink (fs : Fs) (cwd : Place) (s : Bytes) : Bool :=
  match (leaf fs cwd s).bind fs with
  | some (.link _) => true
  | _ => false

/-- `fopen(s, "wb")`: the place of the file that is written, made or emptied. -/
def openWrite (fs : Fs) (cwd : Place) (s : Bytes) : Option Place :=
  match leaf fs cwd s with
  | none => none
  | some p => match fs p with
    | none | some (.file _ _) => some p
    | some (.dir _) => none
    | some (.link to) => match fs to with
      | none | some (.file _ _) => some to
      | _ => none

/-- What `mkdir` comes to: made at a place, something is there already, or an error. -/
inductive Mkdir where
  | made (p : Place) | exists | failed
  deriving DecidableEq, Repr

def mkdir (fs : Fs) (cwd : Place) (s : Bytes) : Mkdir :=
  match leaf fs cwd s with
  | none => if (comps s).getLast?.any isDots && s ≠ [] then .exists else .failed
  | some p => if (fs p).isSome then .exists else .made p

/-- What the system does in a call: does opening, making or changing a directory and setting times succeed where nothing stands
against it (`ok`, and `ok2` for the second such operation of a call), how many bytes does a write take, and how many of the bytes
of a file are lost when it is closed (`fclose` writes what is still in memory, and may fail). `others`: what other
processes did to the file system before the call. -/
structure DiskIn where
  ok : Bool := true
  ok2 : Bool := true
  takes : Option Nat := none
  lost : Nat := 0
  others : Fs → Fs := id

/-- The state of the process: the file system, the current directory, `scpDirDepth`, and the file pointer that the callback
keeps in its context (`scpRecvCtx`); `isOpen`: it has not been closed. `bad`: a NULL name was used, or a closed file. -/
structure Disk where
  fs : Fs
  cwd : Place
  depth : Nat := 0
  fp : Option Place := none
  isOpen : Bool := false
  bad : Bool := false

/-- `fwrite` and, later, `fclose`: contents are added to, or cut at the end. -/
def Fs.append (fs : Fs) (p : Place) (bs : Bytes) : Fs :=
  match fs p with
  | some (.file d t) => fs.put p (.file (d ++ bs) t)
  | _ => fs

def Fs.lose (fs : Fs) (p : Place) (n : Nat) : Fs :=
  match fs p with
  | some (.file d t) => fs.put p (.file (d.take (d.length - n)) t)
  | _ => fs

def Fs.stamp (fs : Fs) (p : Place) (mt at_ : Nat) : Fs :=
  match fs p with
  | some (.file d _) => fs.put p (.file d (some (mt, at_)))
  | _ => fs

/-- `WOLFSSH_SCP_FILE_DONE` (src/wolfscp.c:2534-2578). The result of `fclose` is not looked at; `fflush` before the times
are set is. The pointer stays in the context. -/
def fileDone (d : Disk) (mt at_ : Nat) (i : DiskIn) : Disk × Cb :=
  match d.fp with
  | none => (d, if mt ≠ 0 ∨ at_ ≠ 0 then .abort else .go)
  | some p =>
    if d.isOpen = false then ({ d with bad := true }, .abort)
    else
      let c := { d with isOpen := false, fs := d.fs.lose p i.lost }
      if mt ≠ 0 ∨ at_ ≠ 0 then
        if i.ok = false ∨ i.lost ≠ 0 then (c, .abort) else ({ c with fs := d.fs.stamp p mt at_ }, .go)
      else (c, .go)

/-- `WOLFSSH_SCP_NEW_DIR` (src/wolfscp.c:2580-2638). -/
def newDir (d : Disk) (n : Bytes) (mode : Nat) (i : DiskIn) : Disk × Cb :=
  if n = [] then (d, .go)
  else
    let r := mkdir d.fs d.cwd n
    if r = .failed ∨ (r ≠ .exists ∧ i.ok = false) then (d, .abort)
    else
      let d := match r with
        | .made p => { d with fs := d.fs.put p (.dir mode) }
        | _ => d
      if isSymlink d.fs d.cwd n then (d, .abort)
      else match chdir d.fs d.cwd n with
        | none => (d, .abort)
        | some p => if i.ok2 = false then (d, .abort) else ({ d with cwd := p, depth := d.depth + 1 }, .go)

/-- `wsScpRecvCallback` (src/wolfscp.c:2381-2677); `base` is `scpBasePath`. -/
def recvCb (base : Bytes) (d : Disk) (c : Call) (i : DiskIn) : Disk × Cb :=
  match c with
  | .request => match chdir d.fs d.cwd base with
    | none => (d, .abort)
    | some p => if i.ok = false then (d, .abort) else ({ d with cwd := p, depth := 0 }, .go)
  | .newFile none _ _ _ _ => ({ d with bad := true }, .abort)
  | .newFile (some n) _ _ _ _ =>
    if isSymlink d.fs d.cwd n then (d, .abort)
    else match openWrite d.fs d.cwd n with
      | none => (d, .abort)
      | some p =>
        if i.ok = false then (d, .abort)
        else ({ d with fs := d.fs.put p (.file [] none), fp := some p, isOpen := true }, .go)
  | .part _ _ _ bs => match d.fp with
    | none => (d, .abort)
    | some p =>
      if d.isOpen = false then ({ d with bad := true }, .abort)
      else
        let n := i.takes.getD bs.length
        if n < bs.length then ({ d with fs := d.fs.append p (bs.take n), isOpen := false }, .abort)
        else ({ d with fs := d.fs.append p bs }, .go)
  | .fileDone _ _ mt at_ _ => fileDone d mt at_ i
  | .newDir none _ _ _ => ({ d with bad := true }, .abort)
  | .newDir (some n) mode _ _ => newDir d n mode i
  | .endDir =>
    if d.depth = 0 then (d, .abort)
    else match chdir d.fs d.cwd [46, 46] with
      | none => (d, .abort)
      | some p => if i.ok = false then (d, .abort) else ({ d with cwd := p, depth := d.depth - 1 }, .go)

/-- The callback at work in a transfer: it answers each call as the transfer says it was answered. The file systems before and
after each call are noted. -/
def serve (base : Bytes) : Disk → List Out → List DiskIn → Option (Disk × List (Fs × Fs))
  | d, [], _ => some (d, [])
  | d, .call c r :: os, i :: is =>
    let d := { d with fs := i.others d.fs }
    let (d', r') := recvCb base d c i
    if r' = r then (serve base d' os is).map fun (e, l) => (e, (d.fs, d'.fs) :: l) else none
  | _, .call _ _ :: _, [] => none
  | d, .ack :: os, is => serve base d os is
  | d, .nak :: os, is => serve base d os is
  | d, .conf :: os, is => serve base d os is

end Wolf.Scp
