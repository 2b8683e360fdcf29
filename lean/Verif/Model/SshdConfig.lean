import Verif.Model.SshdKeys
/-!
# The configuration of wolfsshd (apps/wolfsshd/configuration.c)

C strings are lists without their terminator. `long` is not bounded (values of more than 18 digits are not
modelled); allocation failures are not modelled; `isspace` is that of the C locale. The fields `ciphers`,
`hostKeyAlgos`, `kekAlgos` and `listenAddress`, which no option sets, are left out.
-/

namespace Wolf.Sshd
open Wolf

/-- `struct WOLFSSHD_CONFIG` (configuration.c:81-111) without the links. -/
structure Conf where
  usr : Option Bytes := none
  grp : Option Bytes := none
  banner : Option Bytes := none
  chrootDir : Option Bytes := none
  hostKeyFile : Option Bytes := none
  hostCertFile : Option Bytes := none
  userCAKeysFile : Option Bytes := none
  authKeysFile : Option Bytes := none
  forceCmd : Option Bytes := none
  pidFile : Option Bytes := none
  upnDomains : Option Bytes := none
  loginTimer : Int := 120
  port : Nat := 22
  privSep : Nat := 0
  passwordAuth : Bool := true
  pubKeyAuth : Bool := true
  permitRoot : Nat := 0
  permitEmpty : Bool := false
  authKeysFileSet : Bool := false
  strictModes : Bool := true
  deriving DecidableEq, Repr

/-- `isspace` in the C locale. -/
def isSpace (c : UInt8) : Bool := c = 32 ∨ (9 ≤ c ∧ c ≤ 13)

/-- `CreateString` (configuration.c:168-210) on a non-NULL `in`. -/
def createString (s : Bytes) : Except Err Bytes :=
  let s := s.dropWhile (fun c => c = 32)
  match s with
  | [] => .error .badArgument
  | c :: t => .ok (c :: (t.reverse.dropWhile (fun c => c = 10 ∨ c = 32 ∨ c = 13)).reverse)

/-- Digits as a number, up to the first other byte. -/
def digits (s : Bytes) : Nat :=
  (s.takeWhile (fun c => 48 ≤ c ∧ c ≤ 57)).foldl (fun n c => 10 * n + (c.toNat - 48)) 0

/-- C library `atol`. -/
def atol (s : Bytes) : Int :=
  match s.dropWhile isSpace with
  | 45 :: t => - (digits t : Int)
  | 43 :: t => digits t
  | t => digits t

/-- `GetConfigInt` (configuration.c:127-165); `none` for a negative result. -/
def getConfigInt (s : Bytes) (isTime : Bool) : Option Int :=
  if s = [] then none
  else
    let (num, mult) : Bytes × Int :=
      if isTime ∧ s.getLast? = some 109 then (s.dropLast, 60)
      else if isTime ∧ s.getLast? = some 104 then (s.dropLast, 3600)
      else (s, 1)
    let r := atol num
    if r = 0 ∧ num ≠ [48] then none
    else if r < 0 then none
    else some (r * mult)

/-- The tags of the options (configuration.c:404-436). -/
inductive Tag where
  | authKeysFile | privSep | permitEmptyPw | subsystem | challengeResponse | usePam | x11 | printMotd | acceptEnv
  | protocol | loginGrace | hostKey | passwordAuth | pubkeyAuth | port | permitRoot | useDns | incl | chrootDir
  | matchBlock | forceCmd | hostCert | trustedUserCA | pidFile | banner | strictModes | upnDomains
  deriving DecidableEq, Repr

/-- A name as bytes. -/
def name (s : String) : Bytes := s.toUTF8.toList

/-- `options` (configuration.c:438-466). -/
def options : List (Tag × Bytes) :=
  [(.authKeysFile, name "AuthorizedKeysFile"), (.privSep, name "UsePrivilegeSeparation"),
   (.permitEmptyPw, name "PermitEmptyPasswords"), (.subsystem, name "Subsystem"),
   (.challengeResponse, name "ChallengeResponseAuthentication"), (.usePam, name "UsePAM"),
   (.x11, name "X11Forwarding"), (.printMotd, name "PrintMotd"), (.acceptEnv, name "AcceptEnv"),
   (.protocol, name "Protocol"), (.loginGrace, name "LoginGraceTime"), (.hostKey, name "HostKey"),
   (.passwordAuth, name "PasswordAuthentication"), (.pubkeyAuth, name "PubkeyAuthentication"), (.port, name "Port"),
   (.permitRoot, name "PermitRootLogin"), (.useDns, name "UseDNS"), (.incl, name "Include"),
   (.chrootDir, name "ChrootDirectory"), (.matchBlock, name "Match"), (.forceCmd, name "ForceCommand"),
   (.hostCert, name "HostCertificate"), (.trustedUserCA, name "TrustedUserCAKeys"), (.pidFile, name "PidFile"),
   (.banner, name "Banner"), (.strictModes, name "StrictModes"), (.upnDomains, name "AuthorizedUPNDomains")]

/-- `HandlePrivSep` (configuration.c:469-500) on the value. -/
def privSepOf (v : Bytes) : Option Nat :=
  if v = name "sandbox" then some 1
  else if v = name "yes" then some 0
  else if v = name "no" then some 2
  else none

/-- `HandlePermitRoot` (configuration.c:558-592) on the value: NO 0, YES 1, PROHIBIT_PW 2, FORCED_CMD 3. -/
def permitRootOf (v : Bytes) : Option Nat :=
  if v = name "no" then some 0
  else if v = name "yes" then some 1
  else if v = name "prohibit-password" ∨ v = name "without-password" then some 2
  else if v = name "forced-commands-only" then some 3
  else none

/-- The handlers of options that are `yes` or `no` (configuration.c:532-556, 594-672). -/
def yesNo (v : Bytes) : Option Bool :=
  if v = name "no" then some false else if v = name "yes" then some true else none

/-- The result of a handler that fails with `WS_BAD_ARGUMENT`. -/
def orBad {α : Type} (o : Option α) (f : α → Conf) : Except Err Conf :=
  match o with
  | none => .error .badArgument
  | some a => .ok (f a)

/-- The result of a handler that stores a string. -/
def stored (s : Bytes) (f : Bytes → Conf) : Except Err Conf :=
  match createString s with
  | .error e => .error e
  | .ok t => .ok (f t)

/-- `HandleConfigOption` (configuration.c:1221-1335) for the options that change one node only: all but `Include` and
`Match`. `value` is the first word, `full` the rest of the line from there on. -/
def setOption (tag : Tag) (c : Conf) (value full : Bytes) : Except Err Conf :=
  match tag with
  | .authKeysFile => stored value (fun s => { c with authKeysFile := some s, authKeysFileSet := true })
  | .privSep => orBad (privSepOf value) (fun n => { c with privSep := n })
  | .permitEmptyPw => orBad (yesNo value) (fun b => { c with permitEmpty := b })
  | .protocol =>
    match getConfigInt value false with
    | none => .error .badArgument
    | some n => if n = 2 then .ok c else .error .badArgument
  | .loginGrace =>
    match getConfigInt value true with
    | none => .error .badArgument
    | some n => .ok { c with loginTimer := n }
  | .hostKey => stored value (fun s => { c with hostKeyFile := some s })
  | .hostCert => stored value (fun s => { c with hostCertFile := some s })
  | .passwordAuth => orBad (yesNo value) (fun b => { c with passwordAuth := b })
  | .pubkeyAuth => orBad (yesNo value) (fun b => { c with pubKeyAuth := b })
  | .port =>
    match getConfigInt value false with
    | none => .error .badArgument
    | some n => if n ≤ 0 then .error .badArgument else if n ≤ 65535 then .ok { c with port := n.toNat } else .error .badArgument
  | .permitRoot => orBad (permitRootOf value) (fun n => { c with permitRoot := n })
  | .chrootDir => stored value (fun s => { c with chrootDir := some s })
  | .forceCmd => stored full (fun s => { c with forceCmd := some s })
  | .trustedUserCA => stored value (fun s => { c with userCAKeysFile := some s })
  | .pidFile => stored value (fun s => { c with pidFile := some s })
  | .banner => stored value (fun s => { c with banner := some s })
  | .strictModes => orBad (yesNo value) (fun b => { c with strictModes := b })
  | .upnDomains => stored full (fun s => { c with upnDomains := some s })
  | .subsystem | .challengeResponse | .usePam | .x11 | .printMotd | .acceptEnv | .useDns => .ok c
  | .incl | .matchBlock => .error .badArgument

/-- The next word: what is left after blanks, cut at the next blank (`CountWhitespace`, configuration.c:1338-1360, and the
loops of `ParseMatchCriteria`). -/
def nextWord (s : Bytes) : Bytes × Bytes :=
  let s := s.dropWhile isSpace
  (s.takeWhile (fun c => !isSpace c), s.dropWhile (fun c => !isSpace c))

/-- `CheckMatchSelectors` (configuration.c:1087-1131); `fuel` is the length of the value. -/
def checkMatchSelectors : Nat → Bytes → Bool → Bool
  | 0, _, found => found
  | fuel + 1, s, found =>
    let (kw, rest) := nextWord s
    if kw = [] then found
    else if kw = name "User" ∨ kw = name "Group" then checkMatchSelectors fuel (nextWord rest).2 true
    else false

/-- `ParseMatchCriteria` (configuration.c:1003-1077). -/
def parseMatchCriteria : Nat → Bytes → Conf → Except Err Conf
  | 0, _, c => .ok c
  | fuel + 1, s, c =>
    let (kw, rest) := nextWord s
    if kw = [] then .ok c
    else if kw = name "User" then
      let (arg, rest) := nextWord rest
      if arg = [] then .error .fatal else parseMatchCriteria fuel rest { c with usr := some arg }
    else if kw = name "Group" then
      let (arg, rest) := nextWord rest
      if arg = [] then .error .fatal else parseMatchCriteria fuel rest { c with grp := some arg }
    else parseMatchCriteria fuel rest c

/-- The list of nodes, the global one first, and the position of the one being filled. -/
structure Nodes where
  list : List Conf
  cur : Nat
  deriving DecidableEq, Repr

/-- `HandleMatch` (configuration.c:1136-1197) with `wolfSSHD_ConfigCopy` (configuration.c:251-353): a copy of the global node
without its criteria, at the end of the list. -/
def handleMatch (n : Nodes) (full : Bytes) : Except Err Nodes :=
  if !checkMatchSelectors full.length full false then .error .fatal
  else match n.list.head? with
    | none => .error .badArgument
    | some head =>
      match parseMatchCriteria full.length full { head with usr := none, grp := none } with
      | .error e => .error e
      | .ok c => .ok ⟨n.list ++ [c], n.list.length⟩

/-- What the configuration is read from: the contents of files, and the names in directories with whether they are
directories. -/
structure Files where
  file : Bytes → Option Bytes
  dir : Bytes → Option (List (Bytes × Bool))

/-- `strcmp(a, b) < 0`. -/
def strLt : Bytes → Bytes → Bool
  | _, [] => false
  | [], _ :: _ => true
  | a :: s, b :: t => if a = b then strLt s t else a < b

/-- The insertion of a name "in string order" (configuration.c:901-910). -/
def insertName (x : Bytes) : List Bytes → List Bytes
  | [] => [x]
  | y :: l => if strLt x y then x :: y :: l else y :: insertName x l

/-- The files an `Include` value names (`HandleInclude`, configuration.c:736-968): itself, or with a `*` in its last
component but not in its first byte the matching files of the directory, in order. Paths below `PATH_MAX`. -/
def includeNames (F : Files) (value : Bytes) : Except Err (List Bytes) :=
  if value = [] then .error .badArgument
  else
    -- the last `*` after the last `/`, not at position 0
    let last := value.reverse.takeWhile (fun c => c ≠ 47 ∧ c ≠ 42)
    let before := (value.reverse.drop last.length)
    match before with
    | 42 :: revPre =>
      if revPre = [] then .ok [value]
      else
        let postfix? : Option Bytes := if last = [] then none else some last.reverse
        let revName := revPre.takeWhile (fun c => c ≠ 47)
        let revDir := revPre.drop revName.length
        -- a `/` at position 0 is not found (the loop stops at the first byte)
        let (path, prefix_) : Bytes × Bytes :=
          if revDir.length ≤ 1 then ([46], revPre.reverse) else ((revDir.drop 1).reverse, revName.reverse)
        match F.dir path with
        | none => .error .invalidPath
        | some entries =>
          let names := (entries.filter (fun e => !e.2)).foldl (fun acc e => insertName e.1 acc) []
          let names := names.filter (fun n =>
            (prefix_ = [] || (n.length > prefix_.length && prefix_.isPrefixOf n)) &&
            (match postfix? with
              | none => true
              | some p => n.length > p.length && p.isSuffixOf n))
          .ok (names.map (fun n => path ++ [47] ++ n))
    | _ => .ok [value]

/-- Run a loader over a list of files. -/
def loadAll (load : Nodes → Bytes → Except Err Nodes) : List Bytes → Nodes → Except Err Nodes
  | [], n => .ok n
  | f :: fs, n =>
    match load n f with
    | .error e => .error e
    | .ok n' => loadAll load fs n'

/-- `MAX_FILENAME_SZ` of wolfSSL. -/
def MAX_FILENAME_SZ : Nat := 256

/-- `ParseConfigLine` (configuration.c:1367-1417) with `HandleConfigOption`; `load` is `ConfigLoad` for included files. A
loader returns with the cursor where it was (it is a local variable of `ConfigLoad`). -/
def parseConfigLine (F : Files) (load : Nodes → Bytes → Except Err Nodes) (n : Nodes) (l : Bytes) : Except Err Nodes :=
  match options.find? (fun o => o.2.isPrefixOf l) with
  | none => .error .fatal
  | some (tag, kw) =>
    let full := (l.drop kw.length).dropWhile isSpace
    let value := full.takeWhile (fun c => !isSpace c)
    if value.length ≥ MAX_FILENAME_SZ then .error .fatal
    else match tag with
      | .incl =>
        match includeNames F value with
        | .error e => .error e
        | .ok fs => loadAll load fs n
      | .matchBlock => handleMatch n full
      | _ =>
        match n.list[n.cur]? with
        | none => .error .badArgument
        | some c =>
          match setOption tag c value full with
          | .error e => .error e
          | .ok c' => .ok { n with list := n.list.set n.cur c' }

/-- `MAX_LINE_SIZE` (configuration.c:397). -/
def MAX_LINE_SIZE : Nat := 160

/-- What successive `XFGETS` calls give (configuration.c:1455); `fuel` is the length of the file. -/
def readLines : Nat → Bytes → List Bytes
  | 0, _ => []
  | fuel + 1, file =>
    match fgets MAX_LINE_SIZE file with
    | none => []
    | some (buf, rest) => cstr buf :: readLines fuel rest

/-- The loop over the lines (configuration.c:1455-1480). -/
def loadLines (F : Files) (load : Nodes → Bytes → Except Err Nodes) : List Bytes → Nodes → Except Err Nodes
  | [], n => .ok n
  | l :: ls, n =>
    let current := l.dropWhile (fun c => c = 32 ∨ c = 9)
    if current.length ≤ 2 then loadLines F load ls n
    else if current.head? = some 35 then loadLines F load ls n
    else match parseConfigLine F load n current with
      | .error e => .error e
      | .ok n' => loadLines F load ls n'

/-- `ConfigLoad` (configuration.c:1430-1484); the first argument is `WOLFSSHD_MAX_INCLUDE_DEPTH` minus the depth. The cursor of
the caller is kept. -/
def configLoad (F : Files) : Nat → Nodes → Bytes → Except Err Nodes
  | 0, _, _ => .error .badArgument
  | k + 1, n, filename =>
    match F.file filename with
    | none => .error .badArgument
    | some file =>
      match loadLines F (configLoad F k) (readLines file.length file) n with
      | .error e => .error e
      | .ok n' => .ok { n' with cur := n.cur }

/-- `wolfSSHD_ConfigLoad` (configuration.c:1423-1426) on a new configuration (`wolfSSHD_ConfigNew`, 224-247). -/
def wolfSSHD_ConfigLoad (F : Files) (filename : Bytes) : Except Err (List Conf) :=
  match configLoad F 16 ⟨[{}], 0⟩ filename with
  | .error e => .error e
  | .ok n => .ok n.list

/-- The test of a node in `wolfSSHD_GetUserConf` (configuration.c:1505-1540). -/
def confMatches (c : Conf) (usr : Option Bytes) (grps : List Bytes) : Bool :=
  if c.usr = none ∧ c.grp = none then false
  else
    (match c.usr with
      | none => true
      | some u => usr = some u) &&
    (match c.grp with
      | none => true
      | some g => grps.contains g)

/-- `wolfSSHD_GetUserConf` (configuration.c:1488-1551). -/
def getUserConf (conf : List Conf) (usr : Option Bytes) (grps : List Bytes) : Option Conf :=
  match conf.find? (fun c => confMatches c usr grps) with
  | some c => some c
  | none => conf.head?

end Wolf.Sshd
