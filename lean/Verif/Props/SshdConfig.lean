import Verif.Props.Sshd
import Verif.Proofs.SshdFile
import Verif.Proofs.SshdConfigFields
/-!
# wolfsshd: files that can be trusted, and what the configuration means (C89–C91)
-/

namespace Props.Sshd
open Wolf Wolf.Sshd Proofs.SshdConfig
open Spec.SshdFile (Trusted Absolute)
open Spec.SshdConfig (text keyword value words fileLines inScope lastLine Toggle Word Rest Root Separation PortIs Tidy Tame Acceptable)

/-! ## C89: which files are trusted -/

/-- C89: a file is read through the strict opener exactly when it can be trusted: a regular file, not a symbolic link, the one
that was looked at; of the owner or root; not writable (for a secret, not readable) by others; and no directory on the way to
it, up to the root, lets others replace it. -/
theorem C89_open {W : World} (hW : Absolute W) (path : Bytes) (owner : Nat) (secret : Bool) (contents : Bytes) :
    openSecureFile W path owner secret = some contents ↔ Trusted W path owner secret contents :=
  Proofs.SshdFile.open_iff hW _ _ _ _

/-- C89, for keys: with strict modes, a key is authorized by a file only if the file can be trusted. -/
theorem C89_keys {W : World} (hW : Absolute W) (E : KeysEnv) (path : Bytes) (owner : Nat) (key : Bytes)
    (h : searchKeysFile E (openSecureFile W path owner false) true key = .success) :
    ∃ contents, Trusted W path owner false contents ∧ searchKeysFile E (some contents) true key = .success := by
  cases ho : openSecureFile W path owner false with
  | none =>
    rw [ho] at h
    simp only [searchKeysFile] at h
    split at h
    · cases h
    · cases h
  | some contents => exact ⟨contents, (C89_open hW _ _ _ _).1 ho, by rw [ho] at h; exact h⟩

/-- A small system: Bob (uid 7) has an `.ssh` of the given mode with a keys file of the given mode and owner; `/tmp/k` in a
sticky `/tmp`. -/
def demoWorld (sshMode fileMode fileUid : Nat) (link : Bool) : World where
  lstat p := if p = ascii "/home/bob/.ssh/keys" ∨ p = ascii "/tmp/k" then some ⟨!link, false, fileUid, fileMode, 1, 2⟩ else none
  realpath p := if p.head? = some 47 then some p else none
  openRead p := if p = ascii "/home/bob/.ssh/keys" ∨ p = ascii "/tmp/k" then some (⟨true, false, fileUid, fileMode, 1, 2⟩, demoFile) else none
  stat p :=
    if p = ascii "/home/bob/.ssh" then some ⟨false, true, 7, sshMode, 1, 3⟩
    else if p = ascii "/home/bob" then some ⟨false, true, 7, 0o755, 1, 4⟩
    else if p = ascii "/home" ∨ p = ascii "/" then some ⟨false, true, 0, 0o755, 1, 5⟩
    else if p = ascii "/tmp" then some ⟨false, true, 0, 0o1777, 1, 6⟩
    else none

theorem demoWorld_absolute (a b c : Nat) (d : Bool) : Absolute (demoWorld a b c d) := by
  intro p r h
  simp only [demoWorld] at h
  split at h
  · cases h; assumption
  · cases h

example : openSecureFile (demoWorld 0o700 0o600 7 false) (ascii "/home/bob/.ssh/keys") 7 true = some demoFile ∧
    openSecureFile (demoWorld 0o770 0o600 7 false) (ascii "/home/bob/.ssh/keys") 7 true = none ∧
    openSecureFile (demoWorld 0o702 0o600 7 false) (ascii "/home/bob/.ssh/keys") 7 true = none ∧
    openSecureFile (demoWorld 0o700 0o644 7 false) (ascii "/home/bob/.ssh/keys") 7 true = none ∧
    openSecureFile (demoWorld 0o700 0o644 7 false) (ascii "/home/bob/.ssh/keys") 7 false = some demoFile ∧
    openSecureFile (demoWorld 0o700 0o660 7 false) (ascii "/home/bob/.ssh/keys") 7 false = none ∧
    openSecureFile (demoWorld 0o700 0o600 8 false) (ascii "/home/bob/.ssh/keys") 7 false = none ∧
    openSecureFile (demoWorld 0o700 0o600 0 false) (ascii "/home/bob/.ssh/keys") 7 false = some demoFile ∧
    openSecureFile (demoWorld 0o700 0o600 7 true) (ascii "/home/bob/.ssh/keys") 7 false = none ∧
    openSecureFile (demoWorld 0o700 0o600 7 false) (ascii "/tmp/k") 7 false = some demoFile := by decide +kernel
example : Trusted (demoWorld 0o700 0o600 7 false) (ascii "/home/bob/.ssh/keys") 7 true demoFile :=
  (C89_open (demoWorld_absolute _ _ _ _) _ _ _ _).1 (by decide +kernel)

/-! ## C90: what the configuration means -/

/-- What a node of the configuration says, as a reading of lines. -/
structure Says (ls : List Bytes) (c : Conf) : Prop where
  password : Toggle "PasswordAuthentication" true ls c.passwordAuth
  pubkey : Toggle "PubkeyAuthentication" true ls c.pubKeyAuth
  empty : Toggle "PermitEmptyPasswords" false ls c.permitEmpty
  strict : Toggle "StrictModes" true ls c.strictModes
  root : Root ls c.permitRoot
  separation : Separation ls c.privSep
  port : PortIs ls c.port
  chroot : Word "ChrootDirectory" ls c.chrootDir
  keys : Word "AuthorizedKeysFile" ls c.authKeysFile
  keysSet : c.authKeysFileSet = (lastLine "AuthorizedKeysFile" ls).isSome
  authority : Word "TrustedUserCAKeys" ls c.userCAKeysFile
  hostKey : Word "HostKey" ls c.hostKeyFile
  hostCert : Word "HostCertificate" ls c.hostCertFile
  pid : Word "PidFile" ls c.pidFile
  banner : Word "Banner" ls c.banner
  command : Rest "ForceCommand" ls c.forceCmd
  domains : Rest "AuthorizedUPNDomains" ls c.upnDomains

/-- C90: the settings in force for a user are those of the lines for everybody and of the first block about the user; of several
lines with one keyword the last one. Missing: files with an `Include` line (`C90_include_witness`), with keywords that only
start with a known one (`C90_prefix_witness`), or with lines longer than the buffer (`C90_long_line_witness`). -/
theorem C90_scope_partial {F : Files} {filename file : Bytes} {conf : List Conf} (hf : F.file filename = some file)
    (ht : Tame file) (htidy : Tidy (fileLines file)) (hi : ∀ l ∈ fileLines file, keyword l ≠ text "Include")
    (h : wolfSSHD_ConfigLoad F filename = .ok conf) (user : Bytes) (groups : List Bytes) :
    ∃ c, getUserConf conf (some user) groups = some c ∧ Says (inScope (fileLines file) user groups) c := by
  rw [wolfSSHD_ConfigLoad] at h
  cases hl : configLoad F 16 ⟨[{}], 0⟩ filename with
  | error e => rw [hl] at h; cases h
  | ok n =>
    rw [hl] at h
    cases h
    obtain ⟨n1, h1, h2⟩ := load_run hf ht hl
    obtain ⟨c, head, c0, node, more, g1, g2, g3, g4, g5, rfl⟩ := user_conf (fun l hl => ⟨htidy l hl, hi l hl⟩) h1 user groups
    rw [h2]
    refine ⟨c, g1, ?_⟩
    rw [g2]
    have T : ∀ {α : Type} {f : Conf → α} {kw : String} {sem : Bytes → α → Prop}, Sets f kw sem →
        (∀ c : Conf, f { c with usr := none, grp := none } = f c) →
        match lastLine kw (Spec.SshdConfig.globals (fileLines file) ++ more) with
        | none => f c = f {}
        | some l => sem l (f c) := fun hs hf => sets_scope hs hf g3 g4 g5
    have W : ∀ {f : Conf → Option Bytes} {kw : String} {v : Bytes → Bytes}, Sets f kw (fun l x => x = some (v l)) →
        (∀ c : Conf, f { c with usr := none, grp := none } = f c) → f {} = none →
        f c = (lastLine kw (Spec.SshdConfig.globals (fileLines file) ++ more)).map v := by
      intro f kw v hs hf h0
      have := T hs hf
      revert this
      generalize lastLine kw (Spec.SshdConfig.globals (fileLines file) ++ more) = o
      cases o with
      | none => intro h; rw [h, h0]; rfl
      | some l => intro h; exact h
    refine ⟨T sets_password (fun _ => rfl), T sets_pubkey (fun _ => rfl), T sets_empty (fun _ => rfl), T sets_strict (fun _ => rfl),
      T sets_root (fun _ => rfl), T sets_sep (fun _ => rfl), T sets_port (fun _ => rfl), W sets_chroot (fun _ => rfl) rfl,
      W sets_keys (fun _ => rfl) rfl, ?_, W sets_ca (fun _ => rfl) rfl, W sets_hostKey (fun _ => rfl) rfl,
      W sets_hostCert (fun _ => rfl) rfl, W sets_pid (fun _ => rfl) rfl, W sets_banner (fun _ => rfl) rfl,
      W sets_force (fun _ => rfl) rfl, W sets_upn (fun _ => rfl) rfl⟩
    have := T sets_keysSet (fun _ => rfl)
    revert this
    generalize lastLine "AuthorizedKeysFile" (Spec.SshdConfig.globals (fileLines file) ++ more) = o
    cases o with
    | none => intro h; exact h
    | some l => intro h; exact h

/-- A configuration of one file. -/
def oneFile (s : Bytes) : Files := ⟨fun f => if f = ascii "sshd_config" then some s else none, fun _ => none⟩

def demoConf : Bytes := ascii
  "# sample\nPort 2222\nPasswordAuthentication no\n\nPermitRootLogin prohibit-password\nAuthorizedKeysFile .ssh/keys\nMatch User bob\n  PasswordAuthentication yes\n\tForceCommand internal-sftp -l x \nMatch Group staff User al\nChrootDirectory /srv\nMatch User bob\nPermitEmptyPasswords yes"

/-- A setting of a user, if the configuration loads. -/
def fieldOf {α : Type} (F : Files) (user : String) (groups : List Bytes) (f : Conf → α) : Option α :=
  match wolfSSHD_ConfigLoad F (ascii "sshd_config") with
  | .ok conf => (getUserConf conf (some (ascii user)) groups).map f
  | .error _ => none

def field {α : Type} (s : Bytes) (user : String) (groups : List Bytes) (f : Conf → α) : Option α :=
  fieldOf (oneFile s) user groups f

theorem demoConf_loads : ∃ conf, wolfSSHD_ConfigLoad (oneFile demoConf) (ascii "sshd_config") = .ok conf := by
  cases h : wolfSSHD_ConfigLoad (oneFile demoConf) (ascii "sshd_config") with
  | ok c => exact ⟨c, rfl⟩
  | error e =>
    have : field demoConf "x" [] Conf.port = some 2222 := by decide +kernel
    rw [field, fieldOf, h] at this
    cases this

theorem demoConf_tame : Tame demoConf := by unfold Tame; decide +kernel
theorem demoConf_tidy : Tidy (fileLines demoConf) := by unfold Tidy; decide +kernel
theorem demoConf_file : (oneFile demoConf).file (ascii "sshd_config") = some demoConf := if_pos rfl

example : field demoConf "bob" [] Conf.passwordAuth = some true ∧ field demoConf "carl" [] Conf.passwordAuth = some false ∧
    field demoConf "bob" [] Conf.forceCmd = some (some (ascii "internal-sftp -l x")) ∧
    field demoConf "bob" [] Conf.permitEmpty = some false ∧
    field demoConf "al" [ascii "staff"] Conf.chrootDir = some (some (ascii "/srv")) ∧
    field demoConf "al" [ascii "users"] Conf.chrootDir = some none ∧
    field demoConf "al" [] Conf.permitRoot = some 2 := by decide +kernel
/-- The theorem applies to it. -/
example : ∃ conf c, wolfSSHD_ConfigLoad (oneFile demoConf) (ascii "sshd_config") = .ok conf ∧
    getUserConf conf (some (ascii "bob")) [] = some c ∧ c.passwordAuth = true := by
  obtain ⟨conf, h⟩ := demoConf_loads
  obtain ⟨c, h1, h2⟩ := C90_scope_partial demoConf_file demoConf_tame demoConf_tidy (by decide +kernel) h (ascii "bob") []
  refine ⟨conf, c, h, h1, ?_⟩
  have h3 := h2.password
  have e : lastLine "PasswordAuthentication" (inScope (fileLines demoConf) (ascii "bob") []) =
    some (ascii "  PasswordAuthentication yes") := by decide +kernel
  rw [Toggle, e] at h3
  rcases h3 with ⟨_, h3⟩ | ⟨h3, _⟩
  · exact h3
  · exact absurd h3 (by decide +kernel)

/-- Disagreement. A keyword that only starts with a known one is taken for it: `HostKeyAlgorithms`, a keyword of OpenSSH, sets
the file of the host key to `Algorithms`, and `PasswordAuthenticationno` is accepted. -/
theorem C90_prefix_witness :
    field (ascii "HostKey /etc/key\nHostKeyAlgorithms ssh-ed25519\n") "bob" [] Conf.hostKeyFile = some (some (ascii "Algorithms")) ∧
    field (ascii "PasswordAuthenticationno\n") "bob" [] Conf.passwordAuth = some false := by decide +kernel

/-- Disagreement. The tail of a line longer than the buffer is read as a line of its own, also of a comment. -/
theorem C90_long_line_witness :
    field (35 :: List.replicate 158 45 ++ ascii "PermitEmptyPasswords yes\n") "bob" [] Conf.permitEmpty = some true ∧
    lastLine "PermitEmptyPasswords" (fileLines (35 :: List.replicate 158 45 ++ ascii "PermitEmptyPasswords yes\n")) = none := by
  decide +kernel

/-- A main file that includes `blocks`. -/
def twoFiles : Files :=
  ⟨fun f => if f = ascii "sshd_config" then some (ascii "Include blocks\nPasswordAuthentication no\n")
    else if f = ascii "blocks" then some (ascii "Match User bob\nForceCommand ls\n") else none, fun _ => none⟩

/-- Disagreement. A block in an included file starts from the settings made so far; settings for everybody that follow the
`Include` line in the main file do not reach the users of the block: Bob can use a password although the main file, outside any
block, says `PasswordAuthentication no`. -/
theorem C90_include_witness :
    fieldOf twoFiles "bob" [] Conf.passwordAuth = some true ∧ fieldOf twoFiles "al" [] Conf.passwordAuth = some false := by
  decide +kernel

/-- Differences from `sshd_config(5)` that the specification above has built in: the last of several lines counts, not the first;
only the first block that applies counts; a list of names in a `Match` line is one literal name. -/
theorem C90_openssh_witness :
    field (ascii "PermitEmptyPasswords no\nPermitEmptyPasswords yes\n") "bob" [] Conf.permitEmpty = some true ∧
    field (ascii "Match User bob\nForceCommand ls\nMatch User bob\nPasswordAuthentication no\n") "bob" [] Conf.passwordAuth = some true ∧
    field (ascii "Match User al,bob\nPasswordAuthentication no\n") "bob" [] Conf.passwordAuth = some true := by decide +kernel

/-! ## C91: mistakes are not skipped -/

/-- C91: when a configuration file loads (itself, or as an included file), each of its lines is acceptable: it is a comment or
almost empty or starts with a known keyword, and its argument is one that the keyword can have. -/
theorem C91_mistakes {F : Files} {depthLeft : Nat} {n n' : Nodes} {filename file : Bytes} (hf : F.file filename = some file)
    (ht : Tame file) (h : configLoad F depthLeft n filename = .ok n') : ∀ l ∈ fileLines file, Acceptable l := by
  cases depthLeft with
  | zero => cases h
  | succ k =>
    obtain ⟨n1, h1, _⟩ := load_run hf ht h
    intro l hl
    obtain ⟨m, m', ha⟩ := run_mem h1 l hl
    exact acceptable ha

/-- C91: a file that includes itself does not load. -/
theorem C91_loop {F : Files} {filename file : Bytes} (hf : F.file filename = some file) (ht : Tame file)
    (hstar : (42 : UInt8) ∉ filename) (hl : ∃ l ∈ fileLines file, keyword l = text "Include" ∧ value l = filename) :
    ∀ depthLeft n n', configLoad F depthLeft n filename ≠ .ok n' := by
  intro k
  induction k with
  | zero => intro n n' h; cases h
  | succ k ih =>
    intro n n' h
    obtain ⟨n1, h1, _⟩ := load_run hf ht h
    obtain ⟨l, hl, hk, hv⟩ := hl
    obtain ⟨m, m', ha⟩ := run_mem h1 l hl
    obtain ⟨m2, h2⟩ := apply_include hk ha (by rw [hv]; exact hstar)
    rw [hv] at h2
    exact ih _ _ h2

example : ∀ l ∈ fileLines demoConf, Acceptable l := by
  obtain ⟨conf, h⟩ := demoConf_loads
  rw [wolfSSHD_ConfigLoad] at h
  cases hc : configLoad (oneFile demoConf) 16 ⟨[{}], 0⟩ (ascii "sshd_config") with
  | error e => rw [hc] at h; cases h
  | ok n => exact C91_mistakes demoConf_file demoConf_tame hc
example : (["Foo bar\n", "PasswordAuthentication maybe\n", "PermitRootLogin\n", "Match User\n", "Match Host x\n", "Match\n", "Include \n",
    "Port 0\n", "Include sshd_config\n", "passwordauthentication no\n"].map (fun s => field (ascii s) "bob" [] Conf.port)).all (· = none) = true := by
  decide +kernel

end Props.Sshd
