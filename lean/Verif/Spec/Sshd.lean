import Verif.Spec.NameList
/-!
# What an administrator relies on: keys files and the path of the authorized keys file

`sshd_config(5)` and `sshd(8)`, section AUTHORIZED_KEYS FILE FORMAT, for the part wolfsshd supports: one key per
line, a type name, the key in base64, anything after it a comment; empty lines and lines starting with `#` ignored.
-/

namespace Spec.Sshd



/-- The lines of a file. -/
def fileLines (file : List UInt8) : List (List UInt8) := Spec.NameList.split 10 file

/-- The words of a line: what stands between blanks. -/
def words (line : List UInt8) : List (List UInt8) := (Spec.NameList.split 32 line).filter (fun w => w ≠ [])

/-- The line is empty, or its first word starts with `#`. -/
def Ignored (line : List UInt8) : Prop :=
  words line = [] ∨ ∃ w ws, words line = w :: ws ∧ w.head? = some 35

/-- The line lists `key`: it is no comment, its first word is the name of a plain key type, and its second word is
the key in base64 (`dec` decodes). -/
def Lists (plain : List UInt8 → Prop) (dec : List UInt8 → Option (List UInt8)) (line key : List UInt8) : Prop :=
  ∃ ty b rest, words line = ty :: b :: rest ∧ ty.head? ≠ some 35 ∧ plain ty ∧ dec b = some key

/-- A line that is ignored, or has two words of which the second can be decoded unless the first is no known
type. -/
def Sound (plain : List UInt8 → Prop) (dec : List UInt8 → Option (List UInt8)) (line : List UInt8) : Prop :=
  Ignored line ∨ ∃ ty b rest, words line = ty :: b :: rest ∧ (plain ty → dec b ≠ none)

/-- A base64 decoder: a newline at the end changes nothing, and nothing decodes to nothing. -/
def Decoder (dec : List UInt8 → Option (List UInt8)) : Prop :=
  (∀ b, dec (b ++ [10]) = dec b) ∧ ∀ k, dec [] = some k → k = []

/-! ## The path -/

/-- What an `AuthorizedKeysFile` pattern stands for: `%%` is a percent sign, `%h` the home directory, `%u` the
user name; any other character stands for itself, and so does a percent sign at the very end. -/
inductive Expands (home user : List UInt8) : List UInt8 → List UInt8 → Prop
  | nil : Expands home user [] []
  | percent {p o} : Expands home user p o → Expands home user (37 :: 37 :: p) (37 :: o)
  | home {p o} : Expands home user p o → Expands home user (37 :: 104 :: p) (home ++ o)
  | user {p o} : Expands home user p o → Expands home user (37 :: 117 :: p) (user ++ o)
  | char {c p o} : c ≠ 37 ∨ p = [] → Expands home user p o → Expands home user (c :: p) (c :: o)

/-- The path named by `text` for a user at home in `home`: itself if it starts with a slash, else below `home`. -/
def under (home text : List UInt8) : List UInt8 :=
  if text.head? = some 47 then text else home ++ [47] ++ text

/-- The path of a user's keys file: the pattern expanded, `.ssh/authorized_keys` if there is none. -/
def KeysPath (home user : List UInt8) (pattern : Option (List UInt8)) (path : List UInt8) : Prop :=
  match pattern with
  | none | some [] => path = home ++ [47] ++ ".ssh/authorized_keys".toUTF8.toList
  | some p => ∃ o, Expands home user p o ∧ path = under home o

/-- The pattern mentions the user name: `%u` occurs in it as a token. -/
inductive Names : List UInt8 → Prop
  | here {p} : Names (37 :: 117 :: p)
  | skip {d p} : Names p → Names (37 :: d :: p)
  | char {c p} : c ≠ 37 → Names p → Names (c :: p)

end Spec.Sshd
