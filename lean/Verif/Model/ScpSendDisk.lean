import Verif.Model.ScpSource
/-!
# SCP: the default send callback

Models `wsScpSendCallback` and its helpers in /repo/src/wolfscp.c on a POSIX system with symbolic links, and the sending side
with this callback. What a path leads to is an input of each call, as are failures of the system.
-/

namespace Wolf.Scp

/-- What `lstat`, `open` and `readdir` find behind a path: a file with permissions, times of modification and access and
contents, a directory with the names in it in the order in which they are read, a symbolic link, or something else. -/
inductive Obj where
  | reg (mode mtime atime : Nat) (data : Bytes)
  | dir (mode mtime atime : Nat) (names : List Bytes)
  | link
  | special (mode mtime atime : Nat)
  deriving DecidableEq, Repr

/-- A view of the file system. -/
abbrev View := Bytes → Option Obj

/-- The environment of one call: the file system, whether the opening of a file or directory that is there succeeds, and
how many bytes a read gives at most. -/
structure SendIn where
  view : View
  ok : Bool := true
  takes : Nat := 65536

/-- `ScpSendCtx` (wolfssh/wolfscp.h:78-96): the open directories, each with the names not yet read, innermost first
(`currentDir`), the 1024 bytes of `dirName`, and the open file with the bytes not yet read. -/
structure SendDisk where
  stack : List (List Bytes) := []
  dirName : Bytes := List.replicate 1024 0
  fp : Option Bytes := none
  deriving DecidableEq, Repr

/-- '/' or '\'. -/
def sep (b : Byte) : Bool := b == 47 || b == 92

/-- `ExtractFileName` (src/wolfscp.c:2185-2217) into a buffer of 1024 bytes. -/
def extractName (p : Bytes) : Option Bytes :=
  let n := (p.reverse.takeWhile (fun b => !sep b)).reverse
  if p = [] ∨ n.length + 1 > 1024 then none else some n

/-- The string in `dirName`. -/
def SendDisk.dir (d : SendDisk) : Bytes := d.dirName.takeWhile (· ≠ 0)

/-- `ScpPushDir` (src/wolfscp.c:2853-2883) of a directory that can be opened. What is behind the terminator stays. -/
def pushDir (d : SendDisk) (p : Bytes) (names : List Bytes) : SendDisk :=
  { d with stack := names :: d.stack, dirName := p ++ 0 :: d.dirName.drop (p.length + 1) }

/-- The index of the last separator, or 0. -/
def lastSep (b : Bytes) : Nat := (b.reverse.dropWhile (fun c => !sep c)).length - 1

/-- `ScpPopDir` (src/wolfscp.c:2901-2939): the last component is cut off at the last separator anywhere in the buffer. -/
def popDir (d : SendDisk) : SendDisk :=
  let k := lastSep d.dirName
  { d with stack := d.stack.tail, dirName := if k ≠ 0 then d.dirName.take k ++ List.replicate (1024 - k) 0 else d.dirName }

/-- "." and "..", which `FindNextDirEntry` passes over (src/wolfscp.c:3023-3033). -/
def isDot (n : Bytes) : Bool := n == [46] || n == [46, 46]

/-- `GetFileStats` (src/wolfscp.c:2709-2792). -/
def stats (m : Meta) (mode mtime atime : Nat) : Meta := { m with mtime := mtime, atime := atime, mode := mode % 512 }

/-- The first read of a file after it was opened (src/wolfscp.c:3188-3208): the size is a 32-bit number; the file stays open
unless all of it was read. -/
def firstRead (d : SendDisk) (m : Meta) (data : Bytes) (room : Nat) (j : SendIn) : SendDisk × Ans × Meta :=
  let m := { m with size := data.length % 4294967296 }
  let c := data.take (min room j.takes)
  ({ d with fp := if c.length = m.size then none else some (data.drop c.length) }, .data c, m)

/-- `ScpProcessEntry` (src/wolfscp.c:3082-3222) for the name `n`. -/
def entry (d : SendDisk) (m : Meta) (n : Bytes) (room : Nat) (j : SendIn) : SendDisk × Ans × Meta :=
  if d.dir.length + 1 + n.length ≥ 1024 then (d, .abort, m)
  else
    let p := d.dir ++ 47 :: n
    let m := { m with name := n }
    match j.view p with
    | none | some .link => (d, .abort, m)
    | some (.dir mode mt at_ names) =>
      let m := stats m mode mt at_
      if j.ok = false then (d, .abort, m) else (pushDir d p names, .enterDir, m)
    | some (.reg mode mt at_ data) =>
      let m := stats m mode mt at_
      if j.ok = false then ({ d with fp := none }, .abort, m) else firstRead d m data room j
    | some (.special mode mt at_) => (d, .data [], stats m mode mt at_)

/-- A path without separators at its end, of which the first byte stays (src/wolfscp.c:3432-3435). -/
def unseparated (p : Bytes) : Bytes := p.take 1 ++ ((p.drop 1).reverse.dropWhile sep).reverse

/-- `WOLFSSH_SCP_RECURSIVE_REQUEST` with no directory open (src/wolfscp.c:3412-3493). -/
def enterRoot (base : Bytes) (d : SendDisk) (m : Meta) (j : SendIn) : SendDisk × Ans × Meta :=
  if (unseparated base).length ≥ 1024 ∨ j.view (unseparated base) = some .link ∨ base.length ≥ 1024 ∨ j.ok = false then (d, .abort, m)
  else match j.view base with
    | some (.dir mode mt at_ names) =>
      match extractName base with
      | none => (pushDir d base names, .abort, m)
      | some n => (pushDir d base names, .enterDir, stats { m with name := n } mode mt at_)
    | _ => (d, .abort, m)

/-- `wsScpSendCallback` (src/wolfscp.c:3317-3560): the request, the offset, what the session holds of name, times, mode and
size, and the room in the buffer. A single file must be a regular one (what the size of an opened directory or device is
depends on the system). -/
def sendCb (base : Bytes) (d : SendDisk) (r : Req) (off : Nat) (m : Meta) (room : Nat) (j : SendIn) : SendDisk × Ans × Meta :=
  match r with
  | .newRequest => (d, .data [], m)
  | .single =>
    match j.view base with
    | some (.reg mode mt at_ data) =>
      if j.ok = false then ({ d with fp := none }, .fail, m)
      else
        let m := stats { m with size := data.length % 4294967296 } mode mt at_
        match extractName base with
        | none => ({ d with fp := none }, .fail, m)
        | some n =>
          let m := { m with name := n }
          if m.size = 0 then ({ d with fp := none }, .data [], m)
          else
            let c := data.take (min room j.takes)
            if c = [] then ({ d with fp := none }, .eof, m)
            else ({ d with fp := if c.length = m.size then none else some (data.drop c.length) }, .data c, m)
    | _ => ({ d with fp := none }, .fail, m)
  | .recursive =>
    match d.stack with
    | [] => enterRoot base d m j
    | ns :: rest =>
      match ns.dropWhile isDot with
      | [] => (popDir d, if rest = [] then .exitDirFinal else .exitDir, m)
      | n :: ns => entry { d with stack := ns :: rest } m n room j
  | .cont =>
    match d.fp with
    | none => (d, .abort, m)
    | some rest =>
      let c := rest.take (min room j.takes)
      if c = [] then ({ d with fp := none }, .eof, m)
      else ({ d with fp := if add32 off c.length = m.size then none else some (rest.drop c.length) }, .data c, m)

/-- The sending side with its default callback. -/
structure Copier where
  src : Source
  disk : SendDisk
  deriving DecidableEq, Repr

/-- What happens: channel data arrives, or a step is taken. -/
inductive CopyEv where
  | arrive (bs : Bytes)
  | step (rd : Rd) (snd : SrcSnd) (j : SendIn)

/-- One event: `DoScpSource` (src/wolfscp.c:562-875) with `wsScpSendCallback` where it calls the callback (577-579, 653-661). -/
def copyNext (base : Bytes) (c : Copier) : CopyEv → Copier × List SrcOut
  | .arrive bs => ({ c with src := (srcNext c.src (.arrive bs)).1 }, [])
  | .step rd snd j =>
    if c.src.st = .transfer then
      let (d, a, m) := sendCb base c.disk c.src.req c.src.off c.src.info (PART_SZ - c.src.buf.length) j
      let (s, o) := srcStep c.src { rd := rd, snd := snd, ans := a, info := m }
      (⟨s, d⟩, o)
    else
      let (s, o) := srcStep c.src { rd := rd, snd := snd, ans := .data [], info := c.src.info }
      ({ c with src := s }, o)

/-- A history and what could be seen of it. -/
def copyRun (base : Bytes) (c : Copier) : List CopyEv → Copier × List SrcOut
  | [] => (c, [])
  | e :: es => ((copyRun base (copyNext base c e).1 es).1, (copyNext base c e).2 ++ (copyRun base (copyNext base c e).1 es).2)

end Wolf.Scp
