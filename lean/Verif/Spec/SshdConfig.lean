import Verif.Spec.NameList
/-!
# What a configuration file says

`sshd_config(5)` for what wolfsshd supports: one statement per line, a keyword and its arguments, comments and empty lines
ignored. A `Match` line starts a block that lasts to the next one; the lines before the first `Match` are for everybody. Of
several settings of one keyword the last one counts (unlike OpenSSH, where the first one does), and only the first block that
applies to a user counts.
-/

namespace Spec.SshdConfig

/-- A name as bytes. -/
def text (s : String) : List UInt8 := s.toUTF8.toList

/-- White space. -/
def blank (c : UInt8) : Bool := c = 32 ∨ (9 ≤ c ∧ c ≤ 13)

/-- Cut at every blank. -/
def cut : List UInt8 → List (List UInt8)
  | [] => [[]]
  | c :: t =>
    if blank c then [] :: cut t
    else match cut t with
      | [] => [[c]]
      | w :: ws => (c :: w) :: ws

/-- The words of a line. -/
def words (l : List UInt8) : List (List UInt8) := (cut l).filter (fun w => w ≠ [])

def keyword (l : List UInt8) : List UInt8 := (words l).headD []

/-- The first argument. -/
def value (l : List UInt8) : List UInt8 := (words l).tail.headD []

/-- Everything after the keyword, without the blanks around it (a tab at the end stays). -/
def argument (l : List UInt8) : List UInt8 :=
  let rest := ((l.dropWhile blank).dropWhile (fun c => !blank c)).dropWhile blank
  (rest.reverse.dropWhile (fun c => c = 10 ∨ c = 32 ∨ c = 13)).reverse

/-- The lines of a file. -/
def fileLines (file : List UInt8) : List (List UInt8) := Spec.NameList.split 10 file

def isMatch (l : List UInt8) : Bool := keyword l = text "Match"

/-- The lines for everybody. -/
def globals (ls : List (List UInt8)) : List (List UInt8) := ls.takeWhile (fun l => !isMatch l)

/-- The blocks: each `Match` line with the lines up to the next one. -/
def blocks : List (List UInt8) → List (List UInt8 × List (List UInt8))
  | [] => []
  | l :: ls => if isMatch l then (l, globals ls) :: blocks ls else blocks ls

/-- The last argument given for a selector, in a list of selectors and arguments. -/
def selected (sel : List UInt8) : List (List UInt8) → Option (List UInt8)
  | k :: a :: r => (selected sel r).or (if k = sel then some a else none)
  | _ => none

/-- The `Match` line is about this user. -/
def applies (l : List UInt8) (user : List UInt8) (groups : List (List UInt8)) : Bool :=
  (match selected (text "User") (words l).tail with
    | none => true
    | some u => u = user) &&
  (match selected (text "Group") (words l).tail with
    | none => true
    | some g => groups.contains g)

/-- The lines that count for a user: those for everybody, then those of the first block about the user. -/
def inScope (ls : List (List UInt8)) (user : List UInt8) (groups : List (List UInt8)) : List (List UInt8) :=
  globals ls ++
    match (blocks ls).find? (fun b => applies b.1 user groups) with
    | some b => b.2
    | none => []

/-- The last line with the keyword. -/
def lastLine (kw : String) (ls : List (List UInt8)) : Option (List UInt8) :=
  (ls.filter (fun l => keyword l = text kw)).getLast?

/-- A setting that is `yes` or `no`. -/
def Toggle (kw : String) (default : Bool) (ls : List (List UInt8)) (b : Bool) : Prop :=
  match lastLine kw ls with
  | none => b = default
  | some l => (value l = text "yes" ∧ b = true) ∨ (value l = text "no" ∧ b = false)

/-- A setting that is one word. -/
def Word (kw : String) (ls : List (List UInt8)) (x : Option (List UInt8)) : Prop :=
  x = (lastLine kw ls).map value

/-- A setting that is the rest of the line. -/
def Rest (kw : String) (ls : List (List UInt8)) (x : Option (List UInt8)) : Prop :=
  x = (lastLine kw ls).map argument

/-- `PermitRootLogin`: 0 no, 1 yes, 2 not with a password, 3 only for forced commands. -/
def Root (ls : List (List UInt8)) (n : Nat) : Prop :=
  match lastLine "PermitRootLogin" ls with
  | none => n = 0
  | some l =>
    (value l = text "no" ∧ n = 0) ∨ (value l = text "yes" ∧ n = 1) ∨
    ((value l = text "prohibit-password" ∨ value l = text "without-password") ∧ n = 2) ∨
    (value l = text "forced-commands-only" ∧ n = 3)

/-- `UsePrivilegeSeparation`: 0 yes, 1 sandbox, 2 no. -/
def Separation (ls : List (List UInt8)) (n : Nat) : Prop :=
  match lastLine "UsePrivilegeSeparation" ls with
  | none => n = 0
  | some l => (value l = text "yes" ∧ n = 0) ∨ (value l = text "sandbox" ∧ n = 1) ∨ (value l = text "no" ∧ n = 2)

/-- The keywords that are understood. -/
def keywords : List String :=
  ["AuthorizedKeysFile", "UsePrivilegeSeparation", "PermitEmptyPasswords", "Subsystem", "ChallengeResponseAuthentication",
   "UsePAM", "X11Forwarding", "PrintMotd", "AcceptEnv", "Protocol", "LoginGraceTime", "HostKey", "PasswordAuthentication",
   "PubkeyAuthentication", "Port", "PermitRootLogin", "UseDNS", "Include", "ChrootDirectory", "Match", "ForceCommand",
   "HostCertificate", "TrustedUserCAKeys", "PidFile", "Banner", "StrictModes", "AuthorizedUPNDomains"]

/-- No line's keyword only starts with a known keyword. -/
def Tidy (ls : List (List UInt8)) : Prop :=
  ∀ l ∈ ls, ∀ k ∈ keywords, text k <+: keyword l → keyword l = text k

/-- A file without NUL bytes whose lines are at most 158 bytes long, the room of the line buffer. -/
def Tame (file : List UInt8) : Prop := (0 : UInt8) ∉ file ∧ ∀ l ∈ fileLines file, l.length < 159

/-- A decimal number. -/
def decimal (s : List UInt8) : Nat := s.foldl (fun n c => 10 * n + (c.toNat - 48)) 0

/-- `Port`: a number of 1 to 65535. -/
def PortIs (ls : List (List UInt8)) (n : Nat) : Prop :=
  match lastLine "Port" ls with
  | none => n = 22
  | some l => 1 ≤ n ∧ n ≤ 65535 ∧ ((∀ c ∈ value l, 48 ≤ c ∧ c ≤ 57) → n = decimal (value l))

/-! ## Lines that can be accepted -/

/-- The arguments of a `Match` line: selectors `User` and `Group`, each with its argument. -/
def Selectors : List (List UInt8) → Prop
  | [] => True
  | [_] => False
  | k :: _ :: r => (k = text "User" ∨ k = text "Group") ∧ Selectors r

/-- What has to hold of a line that is accepted. -/
structure Acceptable (l : List UInt8) : Prop where
  /-- It is a comment, it is almost empty, or it starts with a known keyword. -/
  known : (l.dropWhile (fun c => c = 32 ∨ c = 9)).head? = some 35 ∨ (l.dropWhile (fun c => c = 32 ∨ c = 9)).length ≤ 2 ∨
    ∃ k ∈ keywords, text k <+: keyword l
  /-- Settings that are `yes` or `no` are one of these. -/
  toggle : ∀ k ∈ ["PermitEmptyPasswords", "PasswordAuthentication", "PubkeyAuthentication", "StrictModes"],
    keyword l = text k → value l = text "yes" ∨ value l = text "no"
  root : keyword l = text "PermitRootLogin" →
    value l ∈ ["no", "yes", "prohibit-password", "without-password", "forced-commands-only"].map text
  separation : keyword l = text "UsePrivilegeSeparation" → value l ∈ ["yes", "no", "sandbox"].map text
  /-- Settings that name something have a name. -/
  named : ∀ k ∈ ["AuthorizedKeysFile", "HostKey", "HostCertificate", "ChrootDirectory", "TrustedUserCAKeys", "PidFile", "Banner",
      "ForceCommand", "AuthorizedUPNDomains", "Port", "Protocol", "LoginGraceTime", "Include"],
    keyword l = text k → value l ≠ []
  /-- A `Match` line has selectors, `User` or `Group`, each with an argument. -/
  selectors : isMatch l = true → (words l).tail ≠ [] ∧ Selectors (words l).tail

end Spec.SshdConfig
