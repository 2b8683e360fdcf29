import Verif.Model.Buffer
/-!
# Paths (src/ssh.c:4595-4706, src/internal.c:21253-21435, src/port.c:859-889, src/wolfsftp.c:1938-2026, 8985-9122)

The POSIX build: `WS_DELIM` is '/', no drive letters are cut. A C string passed in is the list of its bytes without
the terminator (so no byte is 0); buffers written to are memory with explicit bounds, and a read or write outside is
undefined behaviour (`none`). `strtok_r` writes terminators into the input, which nobody reads afterwards; that is not
modelled.
-/

namespace Wolf.Path
open Wolf Wolf.Buffer

/-- `WOLFSSH_SFTP_IS_DELIM` (wolfssh/port.h:701). -/
def isDelim (b : Byte) : Bool := b = 47 || b = 92

/-- `WOLFSSH_SFTP_IS_WINPATH` (wolfssh/port.h:702). -/
def isWinPath (s : Bytes) : Bool := decide (s.length > 1) && decide (s.getD 1 0 = 58)

/-- The test for a relative path (src/ssh.c:4638-4639, src/wolfsftp.c:9010-9011 without the empty case). -/
def isRelative (s : Bytes) : Bool := decide (s.length = 0) || (!isDelim (s.getD 0 0) && !isWinPath s)

/-- `WSTRLEN` of the string at the start of `mem`: where its terminator is; `none` if there is none. -/
def strlen (mem : Bytes) : Option Nat := if 0 ∈ mem then some (mem.takeWhile (· ≠ 0)).length else none

/-- `strrchr(s, '/')` as an index. -/
def strrchr (s : Bytes) : Option Nat :=
  if 47 ∈ s then some (s.length - 1 - (s.reverse.takeWhile (· ≠ 47)).length) else none

/-- `strtok_r` on what is left of the string: the next token and what is left. -/
def strtok (s : Bytes) : Option (Bytes × Bytes) :=
  let t := s.dropWhile isDelim
  if t = [] then none
  else some (t.takeWhile (fun b => !isDelim b), (t.dropWhile (fun b => !isDelim b)).drop 1)

/-- `wstrncat` (src/port.c:863-889) with `n` the size of `mem`: `some none` is the NULL return. -/
def wstrncat (mem s2 : Bytes) : Option (Option Bytes) :=
  match strlen mem with
  | none => some none
  | some l =>
    if mem.length - l - 1 ≥ s2.length then (write mem l (s2 ++ [0])).map some
    else some none

/-- Appending a segment in `wolfSSH_RealPath` (src/ssh.c:4683-4702). -/
def appendSeg (mem : Bytes) (curSz : Nat) (seg : Bytes) : Option (Option Err × Bytes × Nat) :=
  let sepSz := if curSz ≠ 1 then 1 else 0
  if seg.length ≥ mem.length ∨ add32 curSz sepSz ≥ mem.length - seg.length then some (some .invalidPath, mem, curSz)
  else
    match (if curSz ≠ 1 then wstrncat mem [47] else some (some mem)) with
    | none => none
    | some none => some (some .invalidPath, mem, curSz)
    | some (some mem) =>
      match wstrncat mem seg with
      | none => none
      | some none => some (some .invalidPath, mem, add32 curSz sepSz)
      | some (some mem) => some (none, mem, add32 (add32 curSz sepSz) seg.length)

/-- The ".." case (src/ssh.c:4659-4680). -/
def dropSeg (mem : Bytes) (curSz : Nat) : Option (Option Err × Bytes × Nat) :=
  match strlen mem with
  | none => none
  | some l =>
    match strrchr (mem.take l) with
    | none => some (none, mem, curSz)
    | some p =>
      if p = 0 then (write mem 1 [0]).map fun m => (none, m, 1)
      else (write mem p [0]).map fun m => (none, m, (strlen m).getD 0)

/-- One segment of the loop (src/ssh.c:4650-4703). -/
def realSeg (mem : Bytes) (curSz : Nat) (seg : Bytes) : Option (Option Err × Bytes × Nat) :=
  if seg = [46] then some (none, mem, curSz)
  else if seg = [46, 46] then dropSeg mem curSz
  else appendSeg mem curSz seg

/-- The loop (src/ssh.c:4650-4703). `fuel` is a bound on the number of segments. -/
def realLoop : Nat → Bytes → Nat → Bytes → Option (Option Err × Bytes)
  | 0, mem, _, _ => some (none, mem)
  | fuel + 1, mem, curSz, tail =>
    match strtok tail with
    | none => some (none, mem)
    | some (seg, tail) =>
      match realSeg mem curSz seg with
      | none => none
      | some (some e, mem, _) => some (some e, mem)
      | some (none, mem, curSz) => realLoop fuel mem curSz tail

/-- `wolfSSH_RealPath` (src/ssh.c:4623-4706): result and the memory behind `out`, which has `outSz` bytes. -/
def realPath (default : Option Bytes) (inp out : Bytes) : Option (Option Err × Bytes) :=
  if out.length = 0 then some (some .badArgument, out)
  else
    let mem := 47 :: List.replicate (out.length - 1) 0
    match (if isRelative inp then default else none) with
    | none => (write mem 1 [0]).bind fun mem => realLoop inp.length mem 1 inp
    | some d =>
      if d.length ≥ out.length then some (some .invalidPath, mem)
      else
        let mem := d ++ List.replicate (out.length - d.length) 0
        (write mem d.length [0]).bind fun mem => realLoop inp.length mem d.length inp

/-- `WOLFSSH_MAX_FILENAME` (wolfssh/ssh.h:718). -/
def MAX_FILENAME : Nat := 256

/-- The string at the start of a buffer. -/
def str (mem : Bytes) : Bytes := mem.takeWhile (· ≠ 0)

/-- `CanonicalizePath` (src/wolfsftp.c:8990-9049); `cwd` is what `WGETCWD` wrote (`none`: it failed), less than
`MAX_FILENAME` bytes. The result is the string in `out`, a buffer of `MAX_FILENAME` bytes. -/
def canonicalizePath (cwd : Option Bytes) (path : Bytes) : Option (Except Err Bytes) :=
  let out := List.replicate MAX_FILENAME 0
  if path.length ≥ MAX_FILENAME then some (.error .bufferE)
  else if !isDelim (path.getD 0 0) && !isWinPath path then
    match cwd with
    | none => some (.error .invalidPath)
    | some cwd =>
      match realPath none cwd out with
      | none => none
      | some (some e, _) => some (.error e)
      | some (none, out) =>
        if (str out).length ≥ MAX_FILENAME then some (.error .bufferE)
        else
          match realPath (some (str out)) path out with
          | none => none
          | some (some e, _) => some (.error e)
          | some (none, out) => some (.ok (str out))
  else
    match realPath none path out with
    | none => none
    | some (some e, _) => some (.error e)
    | some (none, out) => some (.ok (str out))

/-- `cpLen` (src/wolfsftp.c:1969-1973): the confinement root without trailing separators. -/
def cpLen (root : Bytes) : Nat → Nat
  | 0 => 0
  | 1 => 1
  | n + 2 => if isDelim (root.getD (n + 1) 0) then cpLen root (n + 1) else n + 2

/-- The loop over components (src/wolfsftp.c:2007-2023): is one below the root a link? -/
def hasLink (isLink : Bytes → Bool) (s : Bytes) (cp : Nat) : Bool :=
  (List.range (s.length + 1)).any fun i =>
    decide (i > cp) && (decide (i = s.length) || isDelim (s.getD i 0)) && isLink (s.take i)

/-- `GetAndCleanPath` (src/wolfsftp.c:1952-2026) with `WOLFSSH_HAVE_SYMLINK`, on the string the packet carries:
the resolved path. `isLink` is `wIsSymlink` at that moment. -/
def getAndCleanPath (default root : Option Bytes) (isLink : Bytes → Bool) (data out : Bytes) : Option (Except Err Bytes) :=
  if data.length ≥ MAX_FILENAME then some (.error .bufferE)
  else
    match realPath default (str data) out with
    | none => none
    | some (some e, _) => some (.error e)
    | some (none, out) =>
      let s := str out
      match root with
      | none => some (.ok s)
      | some root =>
        let cp := cpLen root root.length
        if cp > 1 then
          if s.take cp ≠ root.take cp ∨ ¬ (s.length = cp ∨ isDelim (s.getD cp 0) = true) then some (.error .permissions)
          else if hasLink isLink s cp then some (.error .permissions)
          else some (.ok s)
        else if s = [] ∨ isDelim (s.getD 0 0) = false then some (.error .permissions)
        else some (.ok s)

/-! ## `wolfSSH_CleanPath` -/

/-- `WMEMMOVE(mem + dst, mem + src, n)`. -/
def memmove (mem : Bytes) (dst src n : Nat) : Option Bytes :=
  match read mem src n with
  | none => none
  | some d => write mem dst d

/-- Is there `/./` around index `i`? (src/internal.c:21291) -/
def dotAt (mem : Bytes) (i : Nat) : Option Bool :=
  match mem[i]?, mem[i - 1]?, mem[i + 1]? with
  | some a, some b, some c => some (decide (a = 46) && decide (b = 47) && decide (c = 47))
  | _, _, _ => none

/-- Removing `/./` (src/internal.c:21290-21296); `fuel` bounds the rounds, `sz - i` is enough. -/
def dotLoop : Nat → Bytes → Nat → Nat → Option (Bytes × Nat)
  | 0, mem, _, sz => some (mem, sz)
  | fuel + 1, mem, i, sz =>
    if i + 1 < sz then
      match dotAt mem i with
      | none => none
      | some true =>
        match memmove mem (i - 1) (i + 1) (sz - i) with
        | none => none
        | some mem => dotLoop fuel mem i (sz - 2)
      | some false => dotLoop fuel mem (i + 1) sz
    else some (mem, sz)

/-- Removing doubled delimiters (src/internal.c:21299-21305). -/
def dupLoop : Nat → Bytes → Nat → Nat → Option (Bytes × Nat)
  | 0, mem, _, sz => some (mem, sz)
  | fuel + 1, mem, i, sz =>
    if i < sz then
      match mem[i]?, mem[i + 1]? with
      | some a, some b =>
        if a = 47 ∧ b = 47 then
          match memmove mem i (i + 1) (sz - i) with
          | none => none
          | some mem => dupLoop fuel mem i (sz - 1)
        else dupLoop fuel mem (i + 1) sz
      | _, _ => none
    else some (mem, sz)

/-- Is there a `..` segment behind the delimiter at `i`? The bytes are read one after another
(src/internal.c:21316-21321). -/
def dotdotAt (mem : Bytes) (i : Nat) : Option Bool :=
  match mem[i]? with
  | none => none
  | some a =>
    if a ≠ 47 then some false
    else
      match mem[i + 1]? with
      | none => none
      | some b =>
        if b ≠ 46 then some false
        else
          match mem[i + 2]? with
          | none => none
          | some c =>
            if c ≠ 46 then some false
            else
              match mem[i + 3]? with
              | none => none
              | some d => some (decide (d = 47) || decide (d = 0))

/-- The first such index from `i` on (src/internal.c:21315). -/
def findDotdot (mem : Bytes) (sz : Nat) : Nat → Nat → Option (Option Nat)
  | 0, _ => some none
  | fuel + 1, i =>
    if i < sz then
      match dotdotAt mem i with
      | none => none
      | some true => some (some i)
      | some false => findDotdot mem sz fuel (i + 1)
    else some none

/-- Retracing to the begin of the previous segment (src/internal.c:21325-21330): `z` counts down from `i - 1`, 0 if
nothing is found. -/
def retrace (mem : Bytes) : Nat → Option Nat
  | 0 => some 0
  | z + 1 =>
    match mem[z + 1]? with
    | none => none
    | some b => if b = 47 ∨ b = 58 then some (z + 1) else retrace mem z

/-- A cut at the end of the string (src/internal.c:21336-21338). -/
def cutEnd (mem : Bytes) (sz pr en : Nat) : Option Bytes := if en = sz then write mem pr [0] else some mem

/-- "case of at /" (src/internal.c:21341-21344). -/
def cutRoot (mem : Bytes) : Option Bytes :=
  match strlen mem with
  | none => none
  | some n => if n = 0 then write mem 0 [47, 0] else some mem

/-- The cut (src/internal.c:21332-21345). -/
def cutSeg (mem : Bytes) (sz pr en : Nat) : Option Bytes :=
  match memmove mem pr en (sz - en) with
  | none => none
  | some mem =>
    match write mem (sz - (en - pr)) [0] with
    | none => none
    | some mem =>
      match cutEnd mem sz pr en with
      | none => none
      | some mem => cutRoot mem

/-- The loop removing `..` segments (src/internal.c:21309-21350): the memory and the last `sz`. Every round but the last
makes the string shorter, `fuel` bounds the rounds. -/
def cutLoop : Nat → Bytes → Option (Bytes × Nat)
  | 0, mem => (strlen mem).map fun sz => (mem, sz)
  | fuel + 1, mem =>
    match strlen mem with
    | none => none
    | some sz =>
      match findDotdot mem sz sz 1 with
      | none => none
      | some none => some (mem, sz)
      | some (some i) =>
        match retrace mem (i - 1) with
        | none => none
        | some pr =>
          match cutSeg mem sz pr (i + 3) with
          | none => none
          | some mem => cutLoop fuel mem

/-- `wolfSSH_CleanPath` (src/internal.c:21256-21420): `inp` is the string in a buffer of `inSz` bytes, `junk` the
uninitialised last byte of the copy. The result is the cleaned string, or the error. -/
def cleanPath (inp : Bytes) (inSz : Nat) (junk : Byte) : Option (Except Err Bytes) :=
  if inSz = 0 then some (.error .badArgument)
  else
    match dotLoop inp.length (inp ++ [0, junk]) 1 inp.length with
    | none => none
    | some (mem, sz) =>
      match dupLoop sz mem 0 sz with
      | none => none
      | some (mem, _) =>
        match cutLoop mem.length mem with
        | none => none
        | some (mem, sz) =>
          match (if sz > 3 ∧ mem[sz - 1]? = some 47 then write mem (sz - 1) [0] else some mem) with
          | none => none
          | some mem =>
            match strlen mem with
            | none => none
            | some sz => if sz ≥ inSz then some (.error .bufferE) else some (.ok (mem.take sz))

/-! ## Offsets and modes -/

/-- `AddAssign64` (src/internal.c:21484-21492): low word first. -/
def addAssign64 (a : Nat × Nat) (n : Nat) : Nat × Nat :=
  let lo := add32 a.1 n
  (lo, if lo < a.1 then add32 a.2 1 else a.2)

/-- The loop of `wolfSSH_oct2dec` (src/internal.c:21470-21478). -/
def octLoop : Nat → Bytes → Except Err Nat
  | ret, [] => .ok ret
  | ret, b :: bs =>
    if b < 48 ∨ b > 55 then .error .badArgument
    else octLoop ((ret <<< 3) ||| (b - 48).toNat) bs

/-- `wolfSSH_oct2dec` (src/internal.c:21460-21481). `WOLFSSH_MAX_OCTET_LEN` is 6. -/
def oct2dec (oct : Bytes) : Except Err Nat :=
  if oct.length > 6 then .error .badArgument else octLoop 0 oct

end Wolf.Path
