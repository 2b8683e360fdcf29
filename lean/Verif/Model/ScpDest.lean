import Verif.Model.Path
/-!
# SCP: the command and the destination

Models how /repo/src/wolfscp.c reads the command of the peer, and splits the destination of a copy into a directory and a
name. POSIX.
-/

namespace Wolf.Scp
open Wolf.Path

/-- The destination: the directory that is opened first, the name kept for the first entry (`scpFileName`, with the size of
its allocation), and whether that name is used instead of the one in the first message (`scpFileReName`). -/
structure Dest where
  base : Bytes
  name : Bytes
  cap : Nat
  rename : Bool
  deriving DecidableEq, Repr

/-- Room for a name of `n` bytes (src/wolfscp.c:1476-1493): a new, empty string if the old one is too short. -/
def room (old : Option (Bytes × Nat)) (n : Nat) : Bytes × Nat :=
  match old with
  | some (nm, c) => if c ≤ n then ([], n + 1) else (nm, c)
  | none => ([], n + 1)

/-- `ScpCheckForRename` (src/wolfscp.c:1432-1513). `old`: the name kept before and the size of its allocation. `none`: a
read outside the string. `junk`: as for `cleanPath`. -/
def checkRename (old : Option (Bytes × Nat)) (path : Bytes) (junk : Byte) : Option (Except Err Dest) :=
  if path.length + 4 > 1024 then some (.error .bufferE)
  else match cleanPath (path ++ [47, 46, 46]) 1024 junk with
    | none => none
    | some (.error _) => some (.error .fatal)
    | some (.ok up) =>
      let idx := if up = [47] then up.length else up.length + 1
      if idx > path.length then some (.error .bufferE)
      else
        let name := path.drop idx
        let kept := room old name.length
        match path.getLast? with
        | none => none
        | some l =>
          -- lines 1496-1497, 1500: `WSTRNCMP` with the length of the name
          if l ≠ 47 ∧ l ≠ 92 ∧ kept.1.take name.length ≠ name then some (.ok ⟨path.take idx, name, kept.2, true⟩)
          else some (.ok ⟨path, kept.1, kept.2, false⟩)

/-- The direction of a copy: `WOLFSSH_SCP_TO` and `WOLFSSH_SCP_FROM`. -/
inductive Dir where
  | to | from
  deriving DecidableEq, Repr

/-- What `ParseScpCommand` stores in the session. `dest.base` is `scpBasePath`. -/
structure Cmd where
  recursive : Bool := false
  times : Bool := false
  dir : Option Dir := none
  base : Option Bytes := none
  /-- `scpFileName` and the size of its allocation. -/
  name : Option (Bytes × Nat) := none
  rename : Bool := false
  deriving DecidableEq, Repr

/-- `-t` with a path behind it (src/wolfscp.c:1638-1657): the path is cleaned and split; the directory must open
(`ParseBasePathHelper`, 1518-1544). `opens`: whether a directory can be opened. -/
def takeTo (cmdSz : Nat) (junk : Byte) (opens : Bytes → Bool) (c : Cmd) (p : Bytes) : Option (Cmd × Option Err) :=
  match cleanPath p (cmdSz + 256) junk with
  | none => none
  | some (.error _) => some ({ c with dir := some .to, base := some p }, some .fatal)
  | some (.ok q) =>
    match checkRename c.name q junk with
    | none => none
    | some (.error e) => some ({ c with dir := some .to, base := some q }, some e)
    | some (.ok d) =>
      some ({ c with dir := some .to, base := some d.base, name := some (d.name, d.cap), rename := c.rename || d.rename },
        if opens d.base then none else some .fatal)

/-- `-f` with a path behind it (src/wolfscp.c:1679-1690): the path is cleaned. -/
def takeFrom (cmdSz : Nat) (junk : Byte) (c : Cmd) (p : Bytes) : Option (Cmd × Option Err) :=
  match cleanPath p (cmdSz + 256) junk with
  | none => none
  | some (.error _) => some ({ c with dir := some .from, base := some p }, some .fatal)
  | some (.ok q) => some ({ c with dir := some .from, base := some q }, none)

/-- The loop of `ParseScpCommand` (src/wolfscp.c:1598-1693) on the rest of the command: at " -" and a letter, the option;
a path behind `-t` or `-f` begins two bytes behind the letter and extends to the end of the command, and the loop goes on
with its second byte. Memory can be allocated. -/
def scan (cmdSz : Nat) (junk : Byte) (opens : Bytes → Bool) : Nat → Cmd → Bytes → Option (Cmd × Option Err)
  | fuel + 1, c, 32 :: 45 :: o :: r =>
    if o = 114 then scan cmdSz junk opens fuel { c with recursive := true } r
    else if o = 112 then scan cmdSz junk opens fuel { c with times := true } r
    else if o = 116 ∨ o = 102 then
      match r with
      | _ :: b :: p =>
        match if o = 116 then takeTo cmdSz junk opens c (b :: p) else takeFrom cmdSz junk c (b :: p) with
        | none => none
        | some (c, some e) => some (c, some e)
        | some (c, none) => scan cmdSz junk opens fuel c p
      | _ => scan cmdSz junk opens fuel { c with dir := some (if o = 116 then .to else .from), base := none } r
    else scan cmdSz junk opens fuel c r
  | fuel + 1, c, _ :: r => scan cmdSz junk opens fuel c r
  | _, c, _ => some (c, none)

/-- `ParseScpCommand` (src/wolfscp.c:1576-1708) on the command of the session in a fresh session. -/
def parseCmd (cmd : Bytes) (junk : Byte) (opens : Bytes → Bool) : Option (Cmd × Option Err) :=
  match scan cmd.length junk opens cmd.length {} cmd with
  | none => none
  | some (c, e) =>
    some (c, if c.dir = none then some .scpCmd else if e = none ∧ c.base = none then some .scpCmd else e)

/-- `MakeScpCmd` (src/wolfscp.c:2074-2098), `SCP_CMD_FMT` "scp -%c %s": the command a client sends. -/
def makeCmd (d : Dir) (path : Bytes) : Bytes :=
  115 :: 99 :: 112 :: 32 :: 45 :: (match d with | .to => 116 | .from => 102) :: 32 :: path

/-- The destination on the receiving client (`wolfSSH_SCP_from`, src/wolfscp.c:2139-2177): taken as it is. -/
def clientDest (dst : Bytes) (junk : Byte) (opens : Bytes → Bool) : Option (Except Err Dest) :=
  match checkRename none dst junk with
  | none => none
  | some (.error e) => some (.error e)
  | some (.ok d) => some (if opens d.base then .ok d else .error .fatal)

end Wolf.Scp
