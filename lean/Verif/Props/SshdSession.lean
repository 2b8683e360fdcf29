import Verif.Proofs.SshdSession
import Verif.Props.SshdAuth
/-!
# C98, C99: what wolfsshd does for a user, and as whom

`handleConnection` (Model/SshdSession.lean) is what `HandleConnection` does with a user who has logged in: for the credential
that let them in, and the type and command of their session. `O` and `O'` say which system calls fail in the process of the
connection and in the child it starts; the theorems hold for all of them.
-/

namespace Props.Session
open Wolf Wolf.Sshd Spec.SshdAuth Spec.SshdSession
open Spec.OsshCert (ascii)

variable {O O' : Oracle} {D : Daemon} {S : Sys} {conf : List Conf} {pwOf : Bytes → Bytes × Bytes × List Nat} {usr : Bytes}
  {cred : Cred} {pty : Option Bool} {ty : SessionType} {cmd : Option Bytes} {s : St}

theorem scp_name : name "scp" = ascii "scp" := by decide +kernel
theorem sftp_name : name "sftp" = ascii "sftp" := by decide +kernel
theorem internal_name : internalSftp = ascii "internal-sftp" := by decide +kernel
theorem sh_name : name "/bin/sh" = ascii "/bin/sh" := by decide +kernel

/-- The user of a connection that gets anywhere. -/
theorem connection_user {e : Passwd} {c : Conf} (hs : Settings S conf usr e c) :
    handleConnection O O' D S conf pwOf usr cred pty ty cmd s =
      handleSession O O' D ⟨e, (pwOf usr).1, (pwOf usr).2.1, (pwOf usr).2.2, c, certForcedCmd cred⟩ pty (accepted ty cmd) ty
        cmd s := by
  obtain ⟨h1, g, h2, h3⟩ := hs
  unfold handleConnection authGetUserConf
  simp only [h1, h2, h3]

/-- Nothing is done for a user without an entry and settings. -/
theorem connection_settings {r : Done} (h : handleConnection O O' D S conf pwOf usr cred pty ty cmd s = r)
    (hr : ∀ p, r ≠ .error p) : ∃ e c, Settings S conf usr e c := by
  unfold handleConnection authGetUserConf at h
  cases h1 : S.getpwnam usr with
  | none => simp only [h1] at h; exact absurd h.symm (hr _)
  | some e =>
    cases h2 : S.groups usr with
    | none => simp only [h1, h2] at h; exact absurd h.symm (hr _)
    | some g =>
      cases h3 : getUserConf conf (some usr) g with
      | none => simp only [h1, h2, h3] at h; exact absurd h.symm (hr _)
      | some c => exact ⟨e, c, h1, g, h2, h3⟩

theorem cert_forces {v : Bytes} (h : Forces cred v) : certForcedCmd cred = some (upToNul v) := by
  obtain ⟨k, sh, rfl, h2, h3, h4⟩ := h
  unfold certForcedCmd
  simp only [h2, h3]
  rw [if_pos (by cases v with | nil => exact absurd rfl h4 | cons a t => simp)]
  rfl

theorem cert_none (h : ForcesNone cred) : certForcedCmd cred = none := by
  unfold certForcedCmd
  cases cred with
  | none => rfl
  | password pw => rfl
  | publicKey k =>
    cases h2 : k.ossh with
    | none => simp only [h2]
    | some sh =>
      cases h3 : sh.restrictions.forceCommand with
      | none => simp only [h2, h3]
      | some v =>
        simp only [h2, h3]
        by_cases hv : v.length > 0
        · exact absurd ⟨k, sh, rfl, h2, h3, by intro hh; subst hh; simp at hv⟩ (h v)
        · rw [if_neg hv]

theorem forces_or (cred : Cred) : (∃ v, Forces cred v) ∨ ForcesNone cred := by
  by_cases h : ∃ v, Forces cred v
  · exact .inl h
  · exact .inr (fun v hv => h ⟨v, hv⟩)

/-! ## C98: what is done -/

/-- C98: the program started for a user is their shell; with a configured `ForceCommand`, to run that; else, if the
certificate they logged in with forces a command, to run that; else to run what they asked for. It is never started if what is
to be run is `internal-sftp`. -/
theorem C98_program {x : Exec} {parent : Option Proc} {e : Passwd} {c : Conf} (hs : Settings S conf usr e c)
    (h : handleConnection O O' D S conf pwOf usr cred pty ty cmd s = .shell (some x) parent) :
    ∃ told, x.argv.tail = runs told ∧ told ≠ some (ascii "internal-sftp") ∧
      (∀ f, c.forceCmd = some f → told = some f) ∧
      (c.forceCmd = none → ∀ v, Forces cred v → told = some (upToNul v)) ∧
      (c.forceCmd = none → ForcesNone cred → told = if ty = .shell then none else cmd) ∧
      (ty = .shell ∨ ty = .exec ∨ ty = .unknown) ∧
      ((pwOf usr).2.1 ≠ [] → (pwOf usr).2.1.length < 80 → x.file = (pwOf usr).2.1) ∧
      ((pwOf usr).2.1 = [] → x.file = ascii "/bin/sh") := by
  rw [connection_user hs] at h
  rcases Proofs.SshdSession.session_acts h with ⟨_, h⟩ | h | ⟨_, h, _⟩ | ⟨_, h, _⟩ | ⟨ch, p, h, h1, h2, h3, h4, _⟩
  · cases h
  · cases h
  · cases h
  · cases h
  · cases h
    obtain ⟨_, hf, ha⟩ := h4 x rfl
    refine ⟨_, by rw [ha]; rfl, by rw [← internal_name]; exact h3, ?_, ?_, ?_, ?_, ?_, ?_⟩
    · intro f hf
      unfold Proofs.SshdSession.command mergeForcedCmd
      simp only [hf]
    · intro hn v hv
      unfold Proofs.SshdSession.command mergeForcedCmd
      simp only [hn, cert_forces hv]
    · intro hn hv
      unfold Proofs.SshdSession.command mergeForcedCmd
      simp only [hn, cert_none hv]
    · rcases h2 with h | h | h
      · exact .inl h
      · exact .inr (.inr h)
      · exact .inr (.inl h)
    · intro hn hl
      rw [hf]
      show shellFile (pwOf usr).2.1 = _
      unfold shellFile
      rw [if_pos (List.length_pos_iff.2 hn), List.take_of_length_le (by unfold MAX_COMMAND_SZ; omega)]
    · intro hn
      rw [hf]
      show shellFile (pwOf usr).2.1 = _
      rw [hn, ← sh_name]
      rfl

/-- Root may transfer files under `forced-commands-only` only if the forced command is `internal-sftp`. -/
theorem root_rule {uid : Nat} {c : Conf} (h : isRootTransferBlocked uid c = false) (h0 : uid = 0) (h3 : c.permitRoot = 3) :
    c.forceCmd = some (ascii "internal-sftp") := by
  unfold isRootTransferBlocked at h
  rw [if_neg (by simpa using h0), if_neg (by simpa using h3)] at h
  by_cases hc : c.forceCmd = some internalSftp
  · rw [hc, internal_name]
  · rw [decide_eq_true (by simpa using hc)] at h; cases h

/-- C98: SFTP is served only to those who asked for a subsystem with a name that begins with `sftp`; not if their certificate
forces anything but `internal-sftp`; not to root if root may only run forced commands and the forced command is another. -/
theorem C98_sftp {p : Proc} {e : Passwd} {c : Conf} (hs : Settings S conf usr e c)
    (h : handleConnection O O' D S conf pwOf usr cred pty ty cmd s = .sftp p) :
    ty = .subsystem ∧ (∃ rest, cmd = some (ascii "sftp" ++ rest)) ∧
    (∀ v, Forces cred v → upToNul v = ascii "internal-sftp") ∧
    (e.uid = 0 → c.permitRoot = 3 → c.forceCmd = some (ascii "internal-sftp")) := by
  rw [connection_user hs] at h
  rcases Proofs.SshdSession.session_acts h with ⟨_, h⟩ | h | ⟨_, h, _⟩ | ⟨q, h, _, _, h1, h2, h3, h4⟩ | ⟨_, _, h, _⟩
  · cases h
  · cases h
  · cases h
  · refine ⟨h2, ?_, ?_, fun h0 h3 => root_rule h4 h0 h3⟩
    · unfold accepted at h1
      cases cmd with
      | none => cases h1
      | some k =>
        simp only at h1
        by_cases hk : k.take 3 = name "scp"
        · rw [if_pos hk] at h1; cases h1
        · rw [if_neg hk] at h1
          by_cases hk2 : ty = .subsystem ∧ k.take 4 = name "sftp"
          · exact ⟨k.drop 4, congrArg some ((List.take_append_drop 4 k).symm.trans (congrArg (· ++ k.drop 4) (hk2.2.trans sftp_name)))⟩
          · rw [if_neg hk2] at h1; cases h1
    · intro v hv
      have hc := cert_forces hv
      simp only at h3
      rw [hc] at h3
      rcases h3 with h3 | h3
      · cases h3
      · exact (Option.some.inj h3).trans internal_name
  · cases h

/-- C98: SCP is served only to those whose command begins with `scp`; not if their certificate forces a command; not to root
if root may only run forced commands and the forced command is not `internal-sftp`. -/
theorem C98_scp {p : Proc} {e : Passwd} {c : Conf} (hs : Settings S conf usr e c)
    (h : handleConnection O O' D S conf pwOf usr cred pty ty cmd s = .scp p) :
    (∃ rest, cmd = some (ascii "scp" ++ rest)) ∧ ForcesNone cred ∧
    (e.uid = 0 → c.permitRoot = 3 → c.forceCmd = some (ascii "internal-sftp")) := by
  rw [connection_user hs] at h
  rcases Proofs.SshdSession.session_acts h with ⟨_, h⟩ | h | ⟨_, h, _, _, h1, h2, h3⟩ | ⟨_, h, _⟩ | ⟨_, _, h, _⟩
  · cases h
  · cases h
  · refine ⟨?_, ?_, fun h0 h4 => root_rule h3 h0 h4⟩
    · unfold accepted at h1
      cases cmd with
      | none => cases h1
      | some k =>
        simp only at h1
        by_cases hk : k.take 3 = name "scp"
        · exact ⟨k.drop 3, congrArg some ((List.take_append_drop 3 k).symm.trans (congrArg (· ++ k.drop 3) (hk.trans scp_name)))⟩
        · rw [if_neg hk] at h1
          by_cases hk2 : ty = .subsystem ∧ k.take 4 = name "sftp"
          · rw [if_pos hk2] at h1; cases h1
          · rw [if_neg hk2] at h1; cases h1
    · intro v hv
      have h2 : certForcedCmd cred = none := h2
      rw [cert_forces hv] at h2
      cases h2
  · cases h
  · cases h

/-- C98, full statement: with a configured `ForceCommand`, nothing but that command is run for the user, and files are
transferred only if it is `internal-sftp`. Proved of sessions other than transfers, and of root under `forced-commands-only`;
not so of transfers in general: `C98_force_witness`. -/
theorem C98_force_partial {e : Passwd} {c : Conf} (hs : Settings S conf usr e c) {f : Bytes} (hf : c.forceCmd = some f) :
    (∀ x parent, handleConnection O O' D S conf pwOf usr cred pty ty cmd s = .shell (some x) parent →
      x.argv.tail = runs (some f) ∧ f ≠ ascii "internal-sftp") ∧
    (e.uid = 0 → c.permitRoot = 3 → ∀ p, handleConnection O O' D S conf pwOf usr cred pty ty cmd s = .sftp p ∨
      handleConnection O O' D S conf pwOf usr cred pty ty cmd s = .scp p → f = ascii "internal-sftp") := by
  constructor
  · intro x parent h
    obtain ⟨told, h1, h2, h3, _⟩ := C98_program hs h
    have := h3 f hf
    subst this
    exact ⟨h1, fun hh => h2 (by rw [hh])⟩
  · intro h0 h3 p h
    rcases h with h | h
    · have := (C98_sftp hs h).2.2.2 h0 h3
      rw [hf] at this
      exact Option.some.inj this
    · have := (C98_scp hs h).2.2 h0 h3
      rw [hf] at this
      exact Option.some.inj this

/-- C98: and if no call fails, users get what they may have. -/
theorem C98_served (hO : ∀ n c, O n c = true) (hO' : ∀ n c, O' n c = true) {e : Passwd} {c : Conf} (hs : Settings S conf usr e c)
    (hg : (pwOf usr).2.2.length ≤ 65536) (b : Bool) (hf : c.forceCmd = none) (hc : ForcesNone cred)
    (hr : e.uid = 0 → c.permitRoot ≠ 3) (rest : Bytes) :
    (∃ x p, handleConnection O O' D S conf pwOf usr cred (some b) .shell none s = .shell (some x) (some p)) ∧
    (∃ p, handleConnection O O' D S conf pwOf usr cred (some b) .subsystem (some (ascii "sftp" ++ rest)) s = .sftp p) ∧
    (∃ p, handleConnection O O' D S conf pwOf usr cred (some b) .exec (some (ascii "scp" ++ rest)) s = .scp p) ∧
    ∀ k, k.take 3 ≠ ascii "scp" → k ≠ ascii "internal-sftp" →
      ∃ x p, handleConnection O O' D S conf pwOf usr cred (some b) .exec (some k) s = .shell (some x) (some p) := by
  have hb : isRootTransferBlocked e.uid c = false := by
    unfold isRootTransferBlocked
    by_cases h0 : e.uid = 0
    · rw [if_neg (by simpa using h0), if_pos (hr h0)]
    · rw [if_pos h0]
  have hn := cert_none hc
  refine ⟨?_, ?_, ?_, ?_⟩
  · rw [connection_user hs]
    exact Proofs.SshdSession.shell_ok hO hO' D _ hg b none (by
      unfold Proofs.SshdSession.command mergeForcedCmd; simp only [hf, hn]; exact fun h => by cases h) s
  · rw [connection_user hs]
    have e1 : (ascii "sftp" ++ rest).take 3 ≠ name "scp" := by
      have : (ascii "sftp" ++ rest).take 3 = (ascii "sft") := by
        rw [List.take_append_of_le_length (by decide +kernel)]; decide +kernel
      rw [this]; decide +kernel
    have e2 : (ascii "sftp" ++ rest).take 4 = name "sftp" := by
      rw [List.take_append_of_le_length (by decide +kernel)]; decide +kernel
    have e3 : accepted .subsystem (some (ascii "sftp" ++ rest)) = .sftpComplete := by
      unfold accepted
      simp only
      rw [if_neg e1, if_pos ⟨trivial, e2⟩]
    rw [e3]
    unfold handleSession
    simp only
    rw [if_neg (by rw [hn]; exact fun h => h.1 rfl)]
    rw [if_neg (by rw [hb]; exact fun h => by cases h)]
    exact Proofs.SshdSession.sftp_ok hO D _ hg s
  · rw [connection_user hs]
    have e1 : (ascii "scp" ++ rest).take 3 = name "scp" := by
      rw [List.take_append_of_le_length (by decide +kernel)]; decide +kernel
    have e3 : accepted .exec (some (ascii "scp" ++ rest)) = .scpInit := by
      unfold accepted
      simp only
      rw [if_pos e1]
    rw [e3]
    unfold handleSession handleScp
    simp only
    rw [if_neg (by rw [hn]; exact fun h => h rfl), if_neg (by rw [hb]; exact fun h => by cases h)]
    exact Proofs.SshdSession.scp_ok hO D _ hg s
  · intro k h1 h2
    rw [connection_user hs]
    have e3 : accepted .exec (some k) = .success := by
      unfold accepted
      simp only
      rw [scp_name, if_neg h1, if_neg (fun h => by cases h.1)]
    rw [e3]
    exact Proofs.SshdSession.shell_ok hO hO' D _ hg b (some k) (by
      unfold Proofs.SshdSession.command mergeForcedCmd; simp only [hf, hn]; exact fun h => h2 ((Option.some.inj h).trans internal_name)) s

/-- C98: the name a shell is started under is `-` and the last part of its path. -/
theorem C98_login_shell {dir base : Bytes} (hb : (47 : UInt8) ∉ base) (hl : (dir ++ 47 :: base).length < 80) :
    argv0 (dir ++ 47 :: base) = 45 :: base := by
  unfold argv0
  rw [if_pos (by unfold MAX_COMMAND_SZ; exact hl)]
  exact Proofs.SshdSession.argv0Loop_eq base hb _ dir (by simp; omega)

example : argv0 (ascii "/bin/bash") = ascii "-bash" := by decide +kernel

/-! ## C99: as whom -/

/-- C99: whatever works for a user (a transfer, or the program started for them) has the user's ids, real, effective and
saved, and exactly the user's groups; with `ChrootDirectory` its root is that directory and it is below it. This holds whatever
system calls fail: a step that fails ends the session instead. -/
theorem C99_identity {p : Proc} {e : Passwd} {c : Conf} (hs : Settings S conf usr e c)
    (h : ActsFor (handleConnection O O' D S conf pwOf usr cred pty ty cmd s) p) :
    AsUser p e.uid e.gid (pwOf usr).2.2 ∧ Confined p c.chrootDir := by
  rw [connection_user hs] at h
  generalize hr : handleSession O O' D _ pty (accepted ty cmd) ty cmd s = r at h
  rcases Proofs.SshdSession.session_acts hr with ⟨_, h1⟩ | h1 | ⟨q, h1, h2, h3, _⟩ | ⟨q, h1, h2, h3, _⟩ |
    ⟨ch, q, h1, _, _, _, h2, _⟩
  · subst h1; rcases h with h | h | ⟨_, _, h, _⟩ <;> cases h
  · subst h1; rcases h with h | h | ⟨_, _, h, _⟩ <;> cases h
  · subst h1
    rcases h with h | h | ⟨_, _, h, _⟩
    · cases h; exact ⟨h2, h3⟩
    · cases h
    · cases h
  · subst h1
    rcases h with h | h | ⟨_, _, h, _⟩
    · cases h
    · cases h; exact ⟨h2, h3⟩
    · cases h
  · subst h1
    rcases h with h | h | ⟨x, _, h, hx⟩
    · cases h
    · cases h
    · cases h
      subst hx
      exact (h2 x rfl).1

/-- C99: the process that relays between a program and the peer has the user's ids as well, or does not go on. -/
theorem C99_relay {ch : Option Exec} {p : Proc} {e : Passwd} {c : Conf} (hs : Settings S conf usr e c)
    (h : handleConnection O O' D S conf pwOf usr cred pty ty cmd s = .shell ch (some p)) :
    p.ruid = e.uid ∧ p.euid = e.uid ∧ p.suid = e.uid ∧ p.rgid = e.gid ∧ p.egid = e.gid ∧ p.sgid = e.gid := by
  rw [connection_user hs] at h
  rcases Proofs.SshdSession.session_acts h with ⟨_, h⟩ | h | ⟨_, h, _⟩ | ⟨_, h, _⟩ | ⟨_, _, h, _, _, _, _, h4⟩
  · cases h
  · cases h
  · cases h
  · cases h
  · cases h
    obtain ⟨⟨h1, h2, h3⟩, ⟨h5, h6, h7⟩, _⟩ := h4 p rfl
    exact ⟨h1, h2, h3, h5, h6, h7⟩

/-- C99: a user's groups are all used or, if they are more than 65536, none: the list is never cut. -/
theorem C99_groups (all : List Nat) :
    (all.length ≤ 65536 → getUserGroupList all = some all) ∧ (65536 < all.length → getUserGroupList all = none) :=
  ⟨fun h => Proofs.SshdSession.groupListLoop_total h _ _ (by decide) (by decide) (by decide),
    fun h => Proofs.SshdSession.groupListLoop_none h _ _ (by decide)⟩

/-- C99: nothing is done for those who have no entry or no settings. -/
theorem C99_nobody (h : ∀ e c, ¬Settings S conf usr e c) :
    ∃ p, handleConnection O O' D S conf pwOf usr cred pty ty cmd s = .error p :=
  Classical.byContradiction fun hn =>
    let ⟨e, c, hs⟩ := connection_settings (r := handleConnection O O' D S conf pwOf usr cred pty ty cmd s) rfl
      (fun p hp => hn ⟨p, hp⟩)
    h e c hs

/-! ## Cases -/

def allOk : Oracle := fun _ _ => true

/-- The daemon, started by root, and at user 99. -/
def demoDaemon : Daemon := ⟨99, 99, 0, 0, 0⟩
def demoProc : Proc := { ruid := 0, euid := 99, suid := 0, rgid := 0, egid := 99, sgid := 0, groups := [0] }
def demoPw : Bytes → Bytes × Bytes × List Nat := fun u => (u, ascii "/bin/bash", [7, 100])

def jailed : List Conf := [{ chrootDir := some (ascii "/jail"), forceCmd := some (ascii "/bin/true") }]

abbrev demo (conf : List Conf) (O O' : Oracle) (cred : Cred) (ty : SessionType) (cmd : Option Bytes) : Done :=
  handleConnection O O' demoDaemon (Props.Sshd.demoSys 6) conf demoPw (ascii "bob") cred (some true) ty cmd ⟨demoProc, 0⟩

/-- bob in the jail. -/
def bob : Proc := { ruid := 7, euid := 7, suid := 7, rgid := 7, egid := 7, sgid := 7, groups := [7, 100],
                    root := some (ascii "/jail") }

/-- The hypotheses are met, and the forced command is what is run. -/
example : demo jailed allOk allOk (.password []) .exec (some (ascii "ls")) =
    .shell (some ⟨bob, ascii "/bin/bash", [ascii "-bash", ascii "-c", ascii "/bin/true"],
      [(ascii "HOME", ascii "/home/bob"), (ascii "LOGNAME", ascii "bob"), (ascii "SHELL", ascii "/bin/bash")]⟩)
      (some { bob with groups := [0], root := none }) := by decide +kernel

example : Settings (Props.Sshd.demoSys 6) jailed (ascii "bob") ⟨ascii "x", 7, 7, ascii "/home/bob"⟩
    { chrootDir := some (ascii "/jail"), forceCmd := some (ascii "/bin/true") } :=
  ⟨by decide +kernel, [ascii "users"], by decide +kernel, by decide +kernel⟩

/-- A failing `chroot`, `setgroups` or `setreuid` ends it. -/
example : demo jailed allOk (fun _ c => c ≠ .chroot (ascii "/jail")) (.password []) .exec (some (ascii "ls")) =
      .shell none (some { bob with groups := [0], root := none }) ∧
    demo jailed (fun _ c => c ≠ .setgroups [7, 100]) allOk (.password []) .subsystem (some (ascii "sftp")) =
      .error { bob with groups := [0], root := none } ∧
    demo jailed (fun _ c => c ≠ .setreuid 7 7) allOk (.password []) .subsystem (some (ascii "sftp")) = .exit := by
  decide +kernel

/-- A certificate that forces `ls`, and one that forces `internal-sftp`. -/
def forcing (c : Bytes) : Cred := .publicKey ⟨[], false, some { Props.Sshd.demoShown none with restrictions := ⟨some c, none⟩ }⟩

example : demo [{}] allOk allOk (forcing (ascii "ls")) .subsystem (some (ascii "sftp")) = .error demoProc ∧
    demo [{}] allOk allOk (forcing (ascii "ls")) .exec (some (ascii "scp -t x")) = .error demoProc ∧
    demo [{}] allOk allOk (forcing (ascii "internal-sftp")) .subsystem (some (ascii "sftp")) =
      .sftp { bob with root := none, start := some (ascii "/home/bob") } ∧
    demo [{}] allOk allOk (forcing (ascii "internal-sftp")) .shell none = .error demoProc := by decide +kernel

/-- Disagreement: "ForceCommand" confines root only. A user for whom `/bin/true` is forced may transfer files by SFTP and SCP. -/
theorem C98_force_witness :
    demo jailed allOk allOk (.password []) .subsystem (some (ascii "sftp")) = .sftp { bob with start := some (ascii "/home/bob") } ∧
    demo jailed allOk allOk (.password []) .exec (some (ascii "scp -t /home/bob/x")) = .scp bob := by decide +kernel

/-- Disagreement: a certificate that forces `internal-sftp`, that is, is for SFTP only, gives its holder a program if
`ForceCommand` names one (the configured command takes precedence; OpenSSH refuses a login where the two differ). -/
theorem C98_mask_witness :
    ∃ x p, demo [{ forceCmd := some (ascii "/bin/sh") }] allOk allOk (forcing (ascii "internal-sftp")) .shell none =
      .shell (some x) p ∧ x.argv = [ascii "-bash", ascii "-c", ascii "/bin/sh"] :=
  ⟨⟨{ bob with root := none }, ascii "/bin/bash", [ascii "-bash", ascii "-c", ascii "/bin/sh"],
      [(ascii "HOME", ascii "/home/bob"), (ascii "LOGNAME", ascii "bob"), (ascii "SHELL", ascii "/bin/bash")]⟩,
    some { bob with groups := [0], root := none }, by decide +kernel, rfl⟩

/-- Disagreement: a shell whose path has 80 bytes or more is not started, but the file named by its first 79 bytes. -/
theorem C98_long_shell_witness : shellFile (ascii "/opt/" ++ List.replicate 75 97) = ascii "/opt/" ++ List.replicate 74 97 := by
  decide +kernel

/-- Disagreement: a program whose name begins with `scp` cannot be run: the session is taken for SCP. -/
theorem C98_scp_prefix_witness : demo [{}] allOk allOk (.password []) .exec (some (ascii "scpd-status")) =
    .scp { bob with root := none } := by decide +kernel

end Props.Session
