import Verif.Model.SshdAuth
import Verif.Spec.Sshd
import Verif.Spec.SshdCert
import Verif.Spec.SshdFile
/-!
# Who may log in

The data types (`Sys`, the answers of the system; `Conf`, a user's settings) are those of the model; everything else is said
here.
-/

namespace Spec.SshdAuth
open Wolf.Sshd (Sys Conf Passwd Cred PubKey)

/-- The user exists, and `c` are the settings in force for the user and the groups they are in. -/
def Settings (S : Sys) (conf : List Conf) (user : List UInt8) (e : Passwd) (c : Conf) : Prop :=
  S.getpwnam user = some e ∧ ∃ g, S.groups user = some g ∧ Wolf.Sshd.getUserConf conf (some user) g = some c

/-- The user has the rights of root: by name or by number. -/
def Root (user : List UInt8) (e : Passwd) : Prop := user = "root".toUTF8.toList ∨ e.uid = 0

/-! ## Passwords -/

/-- The hash on record: the one of the password file, or, if that says `x`, the one of the shadow file. -/
def OnRecord (S : Sys) (user : List UInt8) (e : Passwd) (h : List UInt8) : Prop :=
  if S.hasShadow = true ∧ e.passwd.head? = some 120 then S.getspnam user = some (some h) ∧ h.length < 256
  else h = e.passwd

/-- The password fits the hash: hashing it again gives the hash; an account whose hash starts with `*` or `!` is locked; the
empty password fits the empty hash. -/
def Fits (crypt : List UInt8 → List UInt8 → Option (List UInt8)) (pw h : List UInt8) : Prop :=
  (h = [] ∧ pw = []) ∨ (h ≠ [] ∧ h.head? ≠ some 42 ∧ h.head? ≠ some 33 ∧ crypt pw h = some h)

/-- The bytes before the first NUL. -/
def upToNul (l : List UInt8) : List UInt8 := l.takeWhile (fun c => c ≠ 0)

/-- A user may log in with a password: passwords are allowed, root only if root may log in without restriction, the empty
password only if it is allowed, and the password fits the hash on record. (`hashed` is what is hashed of it: all of it, should
one think.) -/
def MayPassword (S : Sys) (conf : List Conf) (user pw hashed : List UInt8) : Prop :=
  ∃ e c h, Settings S conf user e c ∧ c.passwordAuth = true ∧
    (Root user e → c.permitRoot ≠ 0 ∧ c.permitRoot ≠ 2 ∧ c.permitRoot ≠ 3) ∧
    (pw = [] → c.permitEmpty = true) ∧ OnRecord S user e h ∧ Fits S.crypt hashed h

/-- A user whom passwords would let in, with a password that does not fit. -/
def WrongPassword (S : Sys) (conf : List Conf) (user pw : List UInt8) : Prop :=
  ∃ e c h, Settings S conf user e c ∧ c.passwordAuth = true ∧
    (Root user e → c.permitRoot ≠ 0 ∧ c.permitRoot ≠ 2 ∧ c.permitRoot ≠ 3) ∧
    (pw = [] → c.permitEmpty = true) ∧ OnRecord S user e h ∧ ¬Fits S.crypt (upToNul pw) h

/-! ## Keys -/

/-- The file at `path` can be read and, in strict mode, trusted. -/
def Reads (S : Sys) (strict : Bool) (owner : Nat) (path file : List UInt8) : Prop :=
  if strict = true then Spec.SshdFile.Trusted S.world path owner false file else S.plainOpen path = some file

/-- The names of plain key types. -/
def PlainType (S : Sys) (ty : List UInt8) : Prop :=
  (∃ e ∈ S.keys.tbl, e.type = .key ∧ e.name = ty) ∧ ¬"-cert-v01@openssh.com".toUTF8.toList <:+: ty

/-- A line of the file lists the key. -/
def Listed (S : Sys) (file key : List UInt8) : Prop :=
  ∃ l ∈ Spec.Sshd.fileLines file, Spec.Sshd.Lists (PlainType S) S.keys.base64 l key

/-- A file without NUL bytes whose lines fit the buffer. -/
def TameFile (S : Sys) (file : List UInt8) : Prop :=
  (0 : UInt8) ∉ file ∧ ∀ l ∈ Spec.Sshd.fileLines file, l.length + 2 ≤ S.keys.maxLine

/-- Keys can be used by this user: root needs a setting that lets root in, and with `forced-commands-only` a forced command. -/
def MayKeys (user : List UInt8) (e : Passwd) (c : Conf) : Prop :=
  c.pubKeyAuth = true ∧
  (Root user e → c.permitRoot ≠ 0 ∧ (c.permitRoot = 3 → c.forceCmd ≠ none))

/-- The user's own keys file lists the key. -/
def InKeysFile (S : Sys) (strict : Bool) (user : List UInt8) (e : Passwd) (c : Conf) (key : List UInt8) : Prop :=
  ∃ path file, Spec.Sshd.KeysPath e.dir user c.authKeysFile path ∧ path.length < 80 ∧ Reads S strict e.uid path file ∧
    Listed S file key

/-- The certificate is one of an authority listed in the trusted file, is for the user, and is valid now and for the peer. -/
def CertGood (S : Sys) (user : List UInt8) (c : Conf) (sh : Wolf.OsshCert.Shown) (peer : Option (List UInt8)) : Prop :=
  ∃ path file, c.userCAKeysFile = some path ∧ Reads S true S.euid path file ∧ Listed S file sh.caKey ∧
    Spec.SshdCert.Principal sh.principals user ∧ Spec.SshdCert.Valid sh.validAfter sh.validBefore S.now ∧
    ∀ l, sh.restrictions.sourceAddress = some l →
      ∃ ip, peer = some ip ∧ (∀ x ∈ Spec.NameList.split 44 l, x.length < 80) ∧
        Spec.SshdCert.Permits S.net.pton4 S.net.pton6 l ip

/-! ## UPN of X.509 certificates -/

/-- A letter without its case. -/
def fold (c : UInt8) : UInt8 := if 65 ≤ c.toNat ∧ c.toNat ≤ 90 then UInt8.ofNat (c.toNat + 32) else c

/-- Cut at every blank, tab, line end or comma. -/
def realms : List UInt8 → List (List UInt8)
  | [] => [[]]
  | c :: t =>
    if c ∈ [32, 9, 13, 10, 44] then [] :: realms t
    else match realms t with
      | [] => [[c]]
      | w :: ws => (c :: w) :: ws

/-- The principal name `user@domain` is the user's: the part before the first `@` is the user name, and, if realms are
configured, the part after it is one of them, letter case aside. -/
def UpnOf (user upn : List UInt8) (allow : Option (List UInt8)) : Prop :=
  (64 : UInt8) ∉ user ∧
  match allow with
  | none | some [] => upn = user ∨ ∃ domain, upn = user ++ 64 :: domain
  | some l => ∃ domain, upn = user ++ 64 :: domain ∧ domain ≠ [] ∧ ∃ r ∈ realms l, r.map fold = domain.map fold

end Spec.SshdAuth
