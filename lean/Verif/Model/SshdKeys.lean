import Verif.Model.NameList
/-!
# Keys files of wolfsshd (apps/wolfsshd/auth.c: 256-338 `CheckAuthKeysLine`, 897-1053 path expansion,
1273-1354 `SearchKeysFile`, 1437-1459 `SearchForPubKey`)

C strings are lists without their terminator. `Base64_Decode` belongs to wolfCrypt and is an input. Allocation
failures are not modelled.
-/

namespace Wolf.Sshd
open Wolf Wolf.NameList

/-- Results of the checks: `WSSHD_AUTH_SUCCESS` 1, `WSSHD_AUTH_FAILURE` 0 (apps/wolfsshd/auth.h:50-53), or a
negative error code. -/
inductive AuthRc where
  | success
  | failure
  | error (e : Err)
  deriving DecidableEq, Repr

/-- The C string at the start of a buffer: the bytes before the first NUL. -/
def cstr (b : Bytes) : Bytes := b.takeWhile (fun c => c ≠ 0)

/-- At most `n` bytes, up to and including a newline. -/
def fgetsGo : Nat → Bytes → Bytes × Bytes
  | 0, s => ([], s)
  | _ + 1, [] => ([], [])
  | n + 1, c :: s =>
    if c = 10 then ([c], s)
    else ((c :: (fgetsGo n s).1), (fgetsGo n s).2)

/-- `WFGETS(buf, size, f)` (C library `fgets`): `none` at the end of the file, otherwise at most `size - 1` bytes
through the next newline, and the rest of the file. -/
def fgets (size : Nat) (file : Bytes) : Option (Bytes × Bytes) :=
  if file = [] then none else some (fgetsGo (size - 1) file)

/-- `WSTRTOK(str, " ", &last)` (C library `strtok_r`): skip blanks, cut at the next blank; `none` if nothing is
left. The second component is what `last` designates. -/
def strtok (s : Bytes) : Option (Bytes × Bytes) :=
  let s := s.dropWhile (fun c => c = 32)
  if s = [] then none
  else some (s.takeWhile (fun c => c ≠ 32), (s.dropWhile (fun c => c ≠ 32)).drop 1)

/-- `WSTRSTR(hay, needle) != NULL`. -/
def strstr (hay needle : Bytes) : Bool :=
  match hay with
  | [] => needle.isPrefixOf []
  | c :: t => needle.isPrefixOf (c :: t) || strstr t needle

/-- `"-cert-v01@openssh.com"` (auth.c:296). -/
def certMark : Bytes := "-cert-v01@openssh.com".toUTF8.toList

/-- The loop over `wolfSSH_QueryKey` (auth.c:293-304; src/ssh.c `wolfSSH_QueryKey`, `NameByIndexType` of
src/internal.c:3641-3661): is `type` the name of a key row of the table that is no certificate type. -/
def typeOk (tbl : Table) (type : Bytes) : Bool :=
  tbl.any (fun e => e.type = .key && !strstr e.name certMark && type = e.name)

/-- The inputs of the keys file functions: the name table of the build, `Base64_Decode` (`none` for a non-zero
return), and `MAX_LINE_SZ` (auth.c:163-203, 900 or more depending on the build). -/
structure KeysEnv where
  tbl : Table
  base64 : Bytes → Option Bytes
  maxLine : Nat

/-- `CheckAuthKeysLine` (auth.c:256-338). -/
def checkAuthKeysLine (E : KeysEnv) (line key : Bytes) : AuthRc :=
  if line = [] ∨ key = [] then .error .badArgument
  else match strtok line with
    | none => .error .fatal
    | some (type, last) =>
      match strtok last with
      | none => .error .fatal
      | some (b64, _) =>
        if typeOk E.tbl type then
          match E.base64 b64 with
          | none => .error .fatal
          | some cand => if cand.length ≠ key.length ∨ key ≠ cand then .failure else .success
        else .failure

/-- The loop of `SearchKeysFile` (auth.c:1310-1338) over what is left of the file; every round takes at least one
byte, so `fuel` starts as the length of the file. -/
def searchLoop (E : KeysEnv) (key : Bytes) : Nat → Bytes → AuthRc
  | 0, _ => .failure
  | fuel + 1, file =>
    match fgets E.maxLine file with
    | none => .failure
    | some (buf, rest) =>
      let current := (cstr buf).dropWhile (fun c => c = 32)
      if current.length ≤ 1 then searchLoop E key fuel rest
      else if current.head? = some 35 then searchLoop E key fuel rest
      else match checkAuthKeysLine E current key with
        | .success => .success
        | .failure => searchLoop E key fuel rest
        | .error e => .error e

/-- `SearchKeysFile` (auth.c:1273-1354). `opened` is the content of the file if it could be opened: through
`wolfSSHD_OpenSecureFile` (Model/SshdFile.lean) when `strict`, plainly otherwise. -/
def searchKeysFile (E : KeysEnv) (opened : Option Bytes) (strict : Bool) (key : Bytes) : AuthRc :=
  if key = [] then .error .badArgument
  else match opened with
    | none => if strict then .failure else .error .badFile
    | some file => searchLoop E key file.length file

/-! ## The path of the file -/

/-- `MAX_PATH_SZ` (apps/wolfsshd/configuration.h:42-44). -/
def MAX_PATH_SZ : Nat := 80

/-- `authKeysDefault` (auth.c:890). -/
def authKeysDefault : Bytes := ".ssh/authorized_keys".toUTF8.toList

/-- The loop of `ExpandAuthKeysTokens` (auth.c:913-965): the pattern from `i` on, and what has been written to
`out`. -/
def expandLoop (home user : Bytes) (outSz : Nat) : Bytes → Bytes → Except Err Bytes
  | [], out => .ok out
  | [c], out =>
    if add32 out.length 1 ≥ outSz then .error .fatal else .ok (out ++ [c])
  | c :: d :: t, out =>
    if c = 37 then
      if d = 37 then
        if add32 out.length 1 ≥ outSz then .error .fatal else expandLoop home user outSz t (out ++ [37])
      else if d = 104 then
        if add32 out.length home.length ≥ outSz then .error .fatal
        else expandLoop home user outSz t (out ++ home)
      else if d = 117 then
        if add32 out.length user.length ≥ outSz then .error .fatal
        else expandLoop home user outSz t (out ++ user)
      else .error .fatal
    else if add32 out.length 1 ≥ outSz then .error .fatal
    else expandLoop home user outSz (d :: t) (out ++ [c])

/-- `ResolveAuthKeysPath` (auth.c:1003-1053) with `ExpandAuthKeysTokens` and, for POSIX,
`IsAbsoluteAuthKeysPath` (975-998). `pattern` is `none` for NULL. The home directory's length is an `int` there;
the sum is exact here. -/
def resolveAuthKeysPath (home : Bytes) (pattern : Option Bytes) (user : Bytes) : Except Err Bytes :=
  let join (suffix : Bytes) : Except Err Bytes :=
    if home.length + 1 + suffix.length ≥ MAX_PATH_SZ then .error .fatal
    else .ok (home ++ [47] ++ suffix)
  match pattern with
  | none => join authKeysDefault
  | some [] => join authKeysDefault
  | some (c :: p) =>
    match expandLoop home user MAX_PATH_SZ (c :: p) [] with
    | .error e => .error e
    | .ok expanded =>
      if expanded.head? = some 47 then .ok expanded else join expanded

/-- `SearchForPubKey` (auth.c:1437-1459): resolve, then search. `openKeys` gives the content of a path if it can
be opened (securely, when `strict`). -/
def searchForPubKey (E : KeysEnv) (openKeys : Bytes → Option Bytes) (home : Bytes) (pattern : Option Bytes)
    (user key : Bytes) (strict : Bool) : AuthRc :=
  match resolveAuthKeysPath home pattern user with
  | .error e => .error e
  | .ok path => searchKeysFile E (openKeys path) strict key

end Wolf.Sshd
