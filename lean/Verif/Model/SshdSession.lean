import Verif.Model.SshdAuth
/-!
# What wolfsshd does for a user who is logged in (apps/wolfsshd/wolfsshd.c: 613-705, 771-850 SFTP and SCP, 1522-1787 shell,
2226-2300, 2421-2568 `HandleConnection`; apps/wolfsshd/auth.c: 3048-3165 permissions, 3233-3310 and 3389-3420 groups)

POSIX. The system calls that matter here are calls of an oracle: it says, for the number of the call and the call, whether it
succeeds; a call that succeeds has its effect on the process, one that fails has none. A call with `-1` for an id is not made.
The relay between the user's program and the channel, signals, terminals, allocation failures and logging are not modelled.
-/

namespace Wolf.Sshd
open Wolf

/-! ## Processes -/

/-- What a process may do: real, effective and saved ids, supplementary groups, the directory its root was changed to, whether
its working directory is below its root; and the directory SFTP starts in (`ssh->sftpDefaultPath`). -/
structure Proc where
  ruid : Nat
  euid : Nat
  suid : Nat
  rgid : Nat
  egid : Nat
  sgid : Nat
  groups : List Nat
  root : Option Bytes := none
  inside : Bool := true
  start : Option Bytes := none
  deriving DecidableEq, Repr

/-- System calls; `io` stands for `pipe`, `forkpty` and `dup2`, `setDefaultPath` for `wolfSSH_SFTP_SetDefaultPath`. -/
inductive Call where
  | setegid (g : Nat)
  | seteuid (u : Nat)
  | setregid (r e : Nat)
  | setreuid (r e : Nat)
  | setgroups (l : List Nat)
  | chdir (p : Bytes)
  | chroot (p : Bytes)
  | opendir (p : Bytes)
  | setDefaultPath (p : Bytes)
  | io
  deriving DecidableEq, Repr

/-- The effect of a successful call (POSIX; `setregid` and `setreuid` set the saved id to the new effective one). After
`chroot` the working directory is where it was, not necessarily below the new root; an absolute path leads below the root. -/
def effect (c : Call) (p : Proc) : Proc :=
  match c with
  | .setegid g => { p with egid := g }
  | .seteuid u => { p with euid := u }
  | .setregid r e => { p with rgid := r, egid := e, sgid := e }
  | .setreuid r e => { p with ruid := r, euid := e, suid := e }
  | .setgroups l => { p with groups := l }
  | .chdir d => { p with inside := p.inside || d.head? = some 47 }
  | .chroot d => { p with root := some d, inside := false }
  | .opendir _ => p
  | .setDefaultPath d => { p with start := some d }
  | .io => p

/-- A process and the number of calls it has made. -/
structure St where
  proc : Proc
  n : Nat
  deriving DecidableEq, Repr

/-- Whether a call succeeds, by its number. -/
abbrev Oracle := Nat → Call → Bool

def call (O : Oracle) (c : Call) (s : St) : Bool × St :=
  if O s.n c then (true, ⟨effect c s.proc, s.n + 1⟩) else (false, ⟨s.proc, s.n + 1⟩)

/-! ## Permissions and groups -/

/-- The daemon's own ids: `auth->gid`, `auth->uid`, `auth->sGid`, `auth->sUid` (auth.c:2903-2942), and `UsePrivilegeSeparation`
of the first node (0 separate, 1 sandbox, 2 off). -/
structure Daemon where
  gid : Nat
  uid : Nat
  sGid : Nat
  sUid : Nat
  privSep : Nat

/-- `wolfSSHD_AuthRaisePermissions` (auth.c:3093-3128). -/
def raisePermissions (O : Oracle) (D : Daemon) (s : St) : Bool × St :=
  if D.privSep = 0 ∨ D.privSep = 1 then
    match call O (.setegid D.sGid) s with
    | (false, s) => (false, s)
    | (true, s) => call O (.seteuid D.sUid) s
  else (true, s)

/-- `wolfSSHD_AuthReducePermissions` (auth.c:3158-3195): the uid is set even if the gid could not be. -/
def reducePermissions (O : Oracle) (D : Daemon) (s : St) : Bool × St :=
  if D.privSep = 0 ∨ D.privSep = 1 then
    match call O (.setegid D.gid) s with
    | (ok1, s) =>
      match call O (.seteuid D.uid) s with
      | (ok2, s) => (ok1 && ok2, s)
  else (true, s)

/-- `wolfSSHD_AuthReducePermissionsUser` (auth.c:3132-3155). -/
def reducePermissionsUser (O : Oracle) (uid gid : Nat) (s : St) : Bool × St :=
  match call O (.setregid gid gid) s with
  | (false, s) => (false, s)
  | (true, s) => call O (.setreuid uid uid) s

/-- `WOLFSSHD_GROUP_LIST_INIT`, `WOLFSSHD_GROUP_LIST_MAX` (auth.c:3222-3227). -/
def GROUP_LIST_INIT : Nat := 32
def GROUP_LIST_MAX : Nat := 65536

/-- The loop of `wolfSSHD_GetUserGroupList` (auth.c:3273-3300): `getgrouplist` fails if the buffer is too small and gives the
whole list otherwise. `fuel` bounds the rounds. -/
def groupListLoop (all : List Nat) : Nat → Nat → Option (List Nat)
  | 0, _ => none
  | fuel + 1, allocSz =>
    if all.length ≤ allocSz then some all
    else if allocSz ≥ GROUP_LIST_MAX then none
    else groupListLoop all fuel (if allocSz * 2 > GROUP_LIST_MAX then GROUP_LIST_MAX else allocSz * 2)

/-- `wolfSSHD_GetUserGroupList` (auth.c:3233-3310) on a user who is in the groups `all`. -/
def getUserGroupList (all : List Nat) : Option (List Nat) := groupListLoop all GROUP_LIST_MAX GROUP_LIST_INIT

/-- `wolfSSHD_AuthSetGroups` (auth.c:3388-3420). -/
def authSetGroups (O : Oracle) (all : List Nat) (s : St) : Bool × St :=
  match getUserGroupList all with
  | none => (false, s)
  | some l => call O (.setgroups l) s

/-- `SetupChroot` (wolfsshd.c:615-648): `none` for an error, else whether the root was changed. -/
def setupChroot (O : Oracle) (dir : Option Bytes) (s : St) : Option Bool × St :=
  match dir with
  | none => (some false, s)
  | some d =>
    match call O (.chdir d) s with
    | (false, s) => (none, s)
    | (true, s) =>
      match call O (.chroot d) s with
      | (false, s) => (none, s)
      | (true, s) =>
        match call O (.chdir [47]) s with
        | (false, s) => (none, s)
        | (true, s) => (some true, s)

/-! ## Forced commands -/

/-- What `UserAuthResult` (wolfsshd.c:2226-2262) and `wolfSSHD_AuthSetCertForcedCmd` (auth.c:3068-3089) keep of the credential
that succeeded, as the C string it is used as. -/
def certForcedCmd (cred : Cred) : Option Bytes :=
  match cred with
  | .publicKey k =>
    match k.ossh with
    | some sh =>
      match sh.restrictions.forceCommand with
      | some v => if v.length > 0 then some (cstr v) else none
      | none => none
    | none => none
  | _ => none

/-- `wolfSSHD_AuthMergeForcedCmd` (auth.c:3059-3063). -/
def mergeForcedCmd (configCmd certCmd : Option Bytes) : Option Bytes :=
  match configCmd with
  | some c => some c
  | none => certCmd

def internalSftp : Bytes := name "internal-sftp"

/-- `IsRootTransferBlocked` (wolfsshd.c:2268-2289). -/
def isRootTransferBlocked (uid : Nat) (c : Conf) : Bool :=
  if uid ≠ 0 then false
  else if c.permitRoot ≠ 3 then false
  else decide (c.forceCmd ≠ some internalSftp)

/-! ## The services -/

/-- A logged-in user: the entry of `getpwnam` (`pw_name`, `pw_shell` beside), the groups `getgrouplist` gives, the settings in
force and the forced command of the certificate. -/
structure User where
  pw : Passwd
  pwName : Bytes
  shell : Bytes
  groups : List Nat
  conf : Conf
  cert : Option Bytes

/-- A program started by `execv`: the process, the file, its arguments, what was added to its environment. -/
structure Exec where
  proc : Proc
  file : Bytes
  argv : List Bytes
  env : List (Bytes × Bytes)
  deriving DecidableEq, Repr

/-- What becomes of a connection: an error (in a process that then shuts the connection down), the end of the process, the
service of SCP or SFTP by a process, or a shell: the child, if it gets as far as `execv`, and the parent that relays, if it
goes on. -/
inductive Done where
  | error (p : Proc)
  | exit
  | scp (p : Proc)
  | sftp (p : Proc)
  | shell (child : Option Exec) (parent : Option Proc)
  deriving DecidableEq, Repr

/-- The groups and the root (wolfsshd.c:699-712, 791-797): `none` is `ret != WS_SUCCESS`. -/
def confine (O : Oracle) (U : User) (s : St) : Option Bool × St :=
  match authSetGroups O U.groups s with
  | (false, s) => (none, s)
  | (true, s) => setupChroot O U.conf.chrootDir s

/-- `SCP_Subsystem` (wolfsshd.c:682-722) up to the transfer. -/
def scpSubsystem (O : Oracle) (D : Daemon) (U : User) (s : St) : Done :=
  match raisePermissions O D s with
  | (false, s) => .error s.proc
  | (true, s) =>
    match confine O U s with
    | (ret, s) =>
      match reducePermissionsUser O U.pw.uid U.pw.gid s with
      | (false, _) => .exit
      | (true, s) => if ret.isSome then .scp s.proc else .error s.proc

/-- The directory SFTP starts in (wolfsshd.c:798-826): `true` is `WS_SUCCESS`. -/
def startDir (O : Oracle) (home : Bytes) (changed : Bool) (s : St) : Bool × St :=
  match (if changed then call O (.setDefaultPath [47]) s else (true, s)) with
  | (false, s) => (false, s)
  | (true, s) =>
    match call O (.opendir home) s with
    | (false, s) => (true, s)
    | (true, s) => call O (.setDefaultPath home) s

/-- What SFTP does before it drops its rights. -/
def prepareSftp (O : Oracle) (U : User) (s : St) : Bool × St :=
  match confine O U s with
  | (none, s) => (false, s)
  | (some changed, s) => startDir O U.pw.dir changed s

/-- `SFTP_Subsystem` (wolfsshd.c:771-836) up to the service. -/
def sftpSubsystem (O : Oracle) (D : Daemon) (U : User) (s : St) : Done :=
  match raisePermissions O D s with
  | (false, s) => .error s.proc
  | (true, s) =>
    match prepareSftp O U s with
    | (ok, s) =>
      match reducePermissionsUser O U.pw.uid U.pw.gid s with
      | (false, _) => .exit
      | (true, s) => if ok then .sftp s.proc else .error s.proc

/-- `MAX_COMMAND_SZ` (wolfsshd.c:971). -/
def MAX_COMMAND_SZ : Nat := 80

/-- `args[0]` (wolfsshd.c:1722-1735): `-` and what follows the last slash; the first byte is taken for a slash. -/
def argv0Loop : Nat → Bytes → Bytes
  | 0, s => s
  | fuel + 1, s =>
    let s := 45 :: s.drop 1
    if s.contains 47 then argv0Loop fuel (s.dropWhile (fun c => c ≠ 47)) else s

def argv0 (shell : Bytes) : Bytes :=
  if shell.length < MAX_COMMAND_SZ then argv0Loop (shell.length + 1) shell else name "-sh"

/-- `cmd` (wolfsshd.c:1744-1750): `WSNPRINTF` cuts what does not fit. -/
def shellFile (shell : Bytes) : Bytes :=
  if shell.length > 0 then shell.take (MAX_COMMAND_SZ - 1) else name "/bin/sh"

/-- `n` calls in a row that have to succeed. -/
def ios (O : Oracle) : Nat → St → Bool × St
  | 0, s => (true, s)
  | n + 1, s =>
    match call O .io s with
    | (false, s) => (false, s)
    | (true, s) => ios O n s

/-- The child (wolfsshd.c:1656-1772): `none` is `exit(1)`. -/
def shellChild (O : Oracle) (U : User) (piped : Bool) (cmd : Option Bytes) (s : St) : Option Exec :=
  match ios O (if piped then 3 else 0) s with
  | (false, _) => none
  | (true, s) =>
    match confine O U s with
    | (none, _) => none
    | (some changed, s) =>
      match (if changed then call O (.chdir [47]) s else (true, s)) with
      | (false, _) => none
      | (true, s) =>
        match reducePermissionsUser O U.pw.uid U.pw.gid s with
        | (false, _) => none
        | (true, s) =>
          let s := (call O (.chdir U.pw.dir) s).2
          some ⟨s.proc, shellFile U.shell,
            argv0 U.shell :: (match cmd with
              | some c => [name "-c", c]
              | none => []),
            [(name "HOME", U.pw.dir), (name "LOGNAME", U.pwName), (name "SHELL", U.shell)]⟩

/-- The parent (wolfsshd.c:1775-1784): `none` is `exit(1)` after killing the child. -/
def shellParent (O : Oracle) (U : User) (s : St) : Option Proc :=
  match reducePermissionsUser O U.pw.uid U.pw.gid s with
  | (false, _) => none
  | (true, s) => some s.proc

/-- An error after the rights were raised (wolfsshd.c:1589-1625, 1640-1652). -/
def shellFail (O : Oracle) (D : Daemon) (s : St) : Done :=
  match reducePermissions O D s with
  | (false, _) => .exit
  | (true, s) => .error s.proc

/-- `SHELL_Subsystem` (wolfsshd.c:1522-1787) up to the relay. `pty` is what `SHELL_IsPty` says, `none` for an error; `O'` is
the oracle of the child. -/
def shellSubsystem (O O' : Oracle) (D : Daemon) (U : User) (pty : Option Bool) (subCmd : Option Bytes) (s : St) : Done :=
  match pty with
  | none => .error s.proc
  | some pty =>
    let cmd := match mergeForcedCmd U.conf.forceCmd U.cert with
      | some c => some c
      | none => subCmd
    if cmd = some internalSftp then .error s.proc
    else
      match raisePermissions O D s with
      | (false, s) => .error s.proc
      | (true, s) =>
        let piped := !pty || cmd.isSome
        match ios O (if piped then 3 else 0) s with
        | (false, s) => shellFail O D s
        | (true, s) =>
          match call O .io s with
          | (false, s) => shellFail O D s
          | (true, s) => .shell (shellChild O' U piped cmd ⟨s.proc, 0⟩) (shellParent O U s)

/-! ## The connection -/

/-- `WS_SessionType` (wolfssh/ssh.h:202-208). -/
inductive SessionType where
  | unknown
  | shell
  | exec
  | subsystem
  | terminal
  deriving DecidableEq, Repr

/-- The successful results of `wolfSSH_accept`. -/
inductive Accepted where
  | success
  | sftpComplete
  | scpInit
  deriving DecidableEq, Repr

/-- How `wolfSSH_accept` ends (src/ssh.c:721-738, `ChannelCommandIsScp` src/wolfscp.c:1009-1024) for the session type and the
command, a C string, of the channel. For SFTP: if the version exchange succeeds. -/
def accepted (ty : SessionType) (cmd : Option Bytes) : Accepted :=
  match cmd with
  | none => .success
  | some c =>
    if c.take 3 = name "scp" then .scpInit
    else if ty = .subsystem ∧ c.take 4 = name "sftp" then .sftpComplete
    else .success

/-- The SCP branch of `HandleConnection` (wolfsshd.c:2496-2519, 2540-2559). -/
def handleScp (O : Oracle) (D : Daemon) (U : User) (s : St) : Done :=
  if U.cert ≠ none then .error s.proc
  else if isRootTransferBlocked U.pw.uid U.conf then .error s.proc
  else scpSubsystem O D U s

/-- `HandleConnection` (wolfsshd.c:2445-2570) for a user, what `wolfSSH_accept` returned, and the type and command of the
channel. -/
def handleSession (O O' : Oracle) (D : Daemon) (U : User) (pty : Option Bool) (ret : Accepted) (ty : SessionType)
    (cmd : Option Bytes) (s : St) : Done :=
  match ty with
  | .shell =>
    match ret with
    | .success => shellSubsystem O O' D U pty none s
    | _ => .error s.proc
  | .subsystem =>
    if U.cert ≠ none ∧ U.cert ≠ some internalSftp then .error s.proc
    else
      match ret with
      | .sftpComplete => if isRootTransferBlocked U.pw.uid U.conf then .error s.proc else sftpSubsystem O D U s
      | .scpInit => handleScp O D U s
      | .success => .error s.proc
  | .unknown | .exec =>
    match ret with
    | .success => shellSubsystem O O' D U pty cmd s
    | .scpInit => handleScp O D U s
    | .sftpComplete => .error s.proc
  | .terminal => .error s.proc

/-- `HandleConnection` from the user name on (wolfsshd.c:2427-2448): `getpwnam`, the settings, and the credential that let the
user in. `pwOf` gives the rest of the password entry and the groups. -/
def handleConnection (O O' : Oracle) (D : Daemon) (S : Sys) (conf : List Conf) (pwOf : Bytes → Bytes × Bytes × List Nat)
    (usr : Bytes) (cred : Cred) (pty : Option Bool) (ty : SessionType) (cmd : Option Bytes) (s : St) : Done :=
  match authGetUserConf S conf usr with
  | none => .error s.proc
  | some c =>
    match S.getpwnam usr with
    | none => .error s.proc
    | some pw =>
      handleSession O O' D ⟨pw, (pwOf usr).1, (pwOf usr).2.1, (pwOf usr).2.2, c, certForcedCmd cred⟩ pty (accepted ty cmd) ty
        cmd s

end Wolf.Sshd
