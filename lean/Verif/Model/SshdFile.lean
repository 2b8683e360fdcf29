import Verif.Model.SshdKeys
/-!
# `wolfSSHD_OpenSecureFile` (apps/wolfsshd/auth.c:1055-1270, POSIX)

What the operating system answers is an input, one answer per question: `lstat` of the path, its `realpath`, what
opening the resolved path gives (the `fstat` of the descriptor and the contents), and `stat` of directories. The walk
asks about each directory at most once, so answers that change over time are included.
-/

namespace Wolf.Sshd
open Wolf

/-- `struct stat`, as far as it is looked at. `mode` are the permission bits. -/
structure Stat where
  isReg : Bool
  isDir : Bool
  uid : Nat
  mode : Nat
  dev : Nat
  ino : Nat
  deriving DecidableEq, Repr

/-- The answers of the operating system. -/
structure World where
  lstat : Bytes → Option Stat
  realpath : Bytes → Option Bytes
  openRead : Bytes → Option (Stat × Bytes)
  stat : Bytes → Option Stat

/-- The position of the last `/` (auth.c:1180-1185). -/
def lastSlash : Bytes → Option Nat
  | [] => none
  | c :: t =>
    match lastSlash t with
    | some i => some (i + 1)
    | none => if c = 47 then some 0 else none

/-- The checks on the opened file (auth.c:1142-1171). -/
def leafOk (lst st : Stat) (ownerUid : Nat) (rejectReadable : Bool) : Bool :=
  if !st.isReg then false
  else if st.uid ≠ ownerUid ∧ st.uid ≠ 0 then false
  else if st.mode &&& 0o022 ≠ 0 then false
  else if rejectReadable ∧ st.mode &&& 0o044 ≠ 0 then false
  else if st.dev ≠ lst.dev ∨ st.ino ≠ lst.ino then false
  else true

/-- The checks on a parent directory (auth.c:1198-1218). -/
def dirOk (W : World) (d : Bytes) : Bool :=
  match W.stat d with
  | none => false
  | some st =>
    if !st.isDir then false
    else if st.mode &&& 0o022 ≠ 0 ∧ st.mode &&& 0o1000 = 0 then false
    else true

/-- The walk up to the root (auth.c:1178-1223); `fuel` is the length of the path, which gets shorter in each round but
the last. -/
def walkUp (W : World) : Nat → Bytes → Bool
  | 0, _ => true
  | fuel + 1, resolved =>
    match lastSlash resolved with
    | none => true
    | some i =>
      let parent := if i = 0 then resolved.take 1 else resolved.take i
      if dirOk W parent then
        if parent = [47] then true else walkUp W fuel parent
      else false

/-- `wolfSSHD_OpenSecureFile` (auth.c:1077-1270): the contents of the file if it can be trusted. `fdopen` succeeds. -/
def openSecureFile (W : World) (path : Bytes) (ownerUid : Nat) (rejectReadable : Bool) : Option Bytes :=
  match W.lstat path with
  | none => none
  | some lst =>
    if !lst.isReg then none
    else match W.realpath path with
      | none => none
      | some resolved =>
        match W.openRead resolved with
        | none => none
        | some (st, contents) =>
          if leafOk lst st ownerUid rejectReadable then
            if walkUp W resolved.length resolved then some contents else none
          else none

end Wolf.Sshd
