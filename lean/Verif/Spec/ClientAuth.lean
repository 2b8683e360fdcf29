import Verif.Model.ClientAuth
import Verif.Spec.Wire
import Verif.Spec.NameList
/-!
# The messages of user authentication (RFC 4252, 4256, 8308, 8332) and which algorithm a key is used with
-/

namespace Spec.ClientAuth
open Spec.Wire

/-- A text of these protocols. -/
def text (s : String) : List UInt8 := s.toList.map fun c => UInt8.ofNat c.toNat

/-- `SSH_MSG_USERAUTH_REQUEST` for the connection service (RFC 4252 section 5). -/
def request (user : List UInt8) (method : String) (fields : List UInt8) : List UInt8 :=
  [50] ++ encString user ++ encString (text "ssh-connection") ++ encString (text method) ++ fields

/-- RFC 4252 section 5.2. -/
def noneRequest (user : List UInt8) : List UInt8 := request user "none" []

/-- RFC 4252 section 8. -/
def passwordRequest (user pw : List UInt8) : List UInt8 := request user "password" ([0] ++ encString pw)

/-- RFC 4256 section 3.1, without language and submethods. -/
def keyboardRequest (user : List UInt8) : List UInt8 := request user "keyboard-interactive" (encString [] ++ encString [])

/-- The request of RFC 4252 section 7 up to the signature. -/
def keyOffer (user alg blob : List UInt8) : List UInt8 := request user "publickey" ([1] ++ encString alg ++ encString blob)

/-- What is to be signed (RFC 4252 section 7). -/
def toSign (sid user alg blob : List UInt8) : List UInt8 := encString sid ++ keyOffer user alg blob

def keyRequest (user alg blob sig : List UInt8) : List UInt8 := keyOffer user alg blob ++ encString sig

/-- A signature that is one string (RFC 8332 section 3, RFC 8709 section 6). -/
def sigOne (name sig : List UInt8) : List UInt8 := encString name ++ encString sig

/-- An unsigned number as the contents of an mpint. -/
def unsigned (n : List UInt8) : List UInt8 := if 128 ≤ (n.headD 0).toNat then 0 :: n else n

/-- A signature of two numbers (RFC 5656 section 3.1.2). -/
def sigTwo (name r s : List UInt8) : List UInt8 :=
  encString name ++ encString (encString (unsigned r) ++ encString (unsigned s))

/-- The method a request is for. -/
def method (msg : List UInt8) : Option (List UInt8) :=
  match msg with
  | 50 :: m =>
    match string m with
    | none => none
    | some (_, m) =>
      match string m with
      | none => none
      | some (_, m) => (string m).map (·.1)
  | _ => none

/-- `SSH_MSG_USERAUTH_INFO_REQUEST`, after the message number (RFC 4256 section 3.2). -/
def infoRequest (name instruction language : List UInt8) (prompts : List (List UInt8 × UInt8)) : List UInt8 :=
  encString name ++ encString instruction ++ encString language ++ encUint32 prompts.length ++
  prompts.flatMap fun p => encString p.1 ++ [p.2]

/-- `SSH_MSG_USERAUTH_INFO_RESPONSE` (RFC 4256 section 3.4). -/
def infoResponse (answers : List (List UInt8)) : List UInt8 :=
  [61] ++ encUint32 answers.length ++ answers.flatMap encString

/-- `SSH_MSG_USERAUTH_FAILURE`, after the message number (RFC 4252 section 5.1), for a list of methods. -/
def failure (methods : List UInt8) (partly : UInt8) : List UInt8 := encString methods ++ [partly]

/-- `SSH_MSG_EXT_INFO`, after the message number (RFC 8308 section 2.3), with the server's signature algorithms (3.1). -/
def sigAlgs (names : List UInt8) : List UInt8 :=
  encUint32 1 ++ encString (text "server-sig-algs") ++ encString names

/-- The plain key types whose signatures go by the same name. -/
def plain : List (List UInt8) :=
  [text "ecdsa-sha2-nistp256", text "ecdsa-sha2-nistp384", text "ecdsa-sha2-nistp521", text "ssh-ed25519"]

/-- The certificates of these keys. -/
def certOf (t : List UInt8) : List UInt8 := t ++ text "-cert-v01@openssh.com"

/-- The signatures of RSA keys, and their certificates. -/
def rsa : List (List UInt8) := [text "rsa-sha2-512", text "rsa-sha2-256"]
def rsaCerts : List (List UInt8) := (text "ssh-rsa" :: rsa).map certOf

/-- By which name a key of type `kt` is offered to a server that takes the signature algorithms `names`, and how it signs: an RSA key by
the first of these that is one; an RSA certificate if one is there, for a SHA-512 signature if that is there too; another key or
certificate if its type is there. -/
def choice (kt : List UInt8) (names : List (List UInt8)) : Option (List UInt8 × List UInt8) :=
  if kt = text "ssh-rsa" then (names.find? fun n => rsa.contains n).map fun n => (n, n)
  else if kt ∈ rsaCerts then
    if names.any fun n => rsaCerts.contains n then
      let sig := if text "rsa-sha2-512" ∈ names then text "rsa-sha2-512" else text "rsa-sha2-256"
      some (certOf sig, sig)
    else none
  else if kt ∈ plain then if kt ∈ names then some (kt, kt) else none
  else
    match plain.find? fun t => certOf t = kt with
    | some t => if kt ∈ names then some (kt, t) else none
    | none => none

open Wolf.ClientAuth (Offer Env In Shown table)

/-- `sig` is what the key `o` signs `data` with, by the name `sn`. -/
def SignedBy (o : Offer) (sn data sig : List UInt8) : Prop :=
  if sn ∈ rsa then ∃ b, o.sign (Wolf.NameList.nameToId table sn) data = .ok b ∧ sig = sigOne sn b
  else if sn = text "ssh-ed25519" then ∃ b, o.sign (Wolf.NameList.nameToId table o.type) data = .ok b ∧ sig = sigOne sn b
  else ∃ r s, o.signRs (Wolf.NameList.nameToId table o.type) data = .ok (r, s) ∧ sig = sigTwo sn r s

/-- The key can be used: it is loaded, and signs `data` by the name `sn`; an RSA signature has the size said on loading. -/
def Able (o : Offer) (sn data : List UInt8) : Prop :=
  ∃ n, o.load (Wolf.NameList.nameToId table o.type) = .ok n ∧
    if sn ∈ rsa then ∃ b, o.sign (Wolf.NameList.nameToId table sn) data = .ok b ∧ b.length = n ∧ n ≠ 0
    else if sn = text "ssh-ed25519" then ∃ b, o.sign (Wolf.NameList.nameToId table o.type) data = .ok b
    else ∃ rs, o.signRs (Wolf.NameList.nameToId table o.type) data = .ok rs

/-- What the key must give: its signatures are of at most the size it says when it is loaded. -/
structure Honest (o : Offer) : Prop where
  size : ∀ i n, o.load i = .ok n → n ≤ 16384
  one : ∀ i n j d b, o.load i = .ok n → o.sign j d = .ok b → b.length ≤ n
  two : ∀ i n j d r s, o.load i = .ok n → o.signRs j d = .ok (r, s) → r.length + s.length + 2 ≤ n

/-- A text as a C string. -/
def cut (b : List UInt8) : List UInt8 := b.takeWhile (· ≠ 0)

/-- An information request as a program in C sees it. -/
def shown (name instruction language : List UInt8) (prompts : List (List UInt8 × UInt8)) : Shown :=
  ⟨cut name, cut instruction, cut language, prompts.map fun p => (cut p.1, p.2)⟩

/-- Why a client for `user` in the session `sid`, the server taking the signature algorithms `algs`, sends `msg`: it starts, or the
server sent what may be answered so, and the application (in `E`) gave what it takes. -/
inductive Reason (E : Env) (user sid : List UInt8) (algs : List (List UInt8)) : In → List UInt8 → Prop
  | none : Reason E user sid algs .start (noneRequest user)
  | keyboard {mem len l rest} : mem.take len = encString l ++ rest → text "keyboard-interactive" ∈ Spec.NameList.names l →
      Reason E user sid algs (.failure mem len) (keyboardRequest user)
  | password {mem len l rest pw} : mem.take len = encString l ++ rest → text "password" ∈ Spec.NameList.names l →
      E.set = true → E.password = some pw → Reason E user sid algs (.failure mem len) (passwordRequest user pw)
  | key {mem len l rest o alg sn sig} : mem.take len = encString l ++ rest → text "publickey" ∈ Spec.NameList.names l →
      E.set = true → E.key = some o → (text "password" ∈ Spec.NameList.names l → E.password = none) →
      choice o.type algs = some (alg, sn) → SignedBy o sn (toSign sid user alg o.blob) sig →
      Reason E user sid algs (.failure mem len) (keyRequest user alg o.blob sig)
  | answers {mem len n i l ps rest rs} : mem.take len = infoRequest n i l ps ++ rest →
      E.set = true → E.keyboard (shown n i l ps) = some rs → rs.length = ps.length →
      Reason E user sid algs (.info mem len) (infoResponse rs)

open Wolf.ClientAuth (Ev)

/-- Why the application is asked for something. -/
inductive Question (E : Env) : In → Ev → Prop
  | password {mem len l rest} : mem.take len = encString l ++ rest → text "password" ∈ Spec.NameList.names l →
      Question E (.failure mem len) .askedPassword
  | key {mem len l rest} : mem.take len = encString l ++ rest → text "publickey" ∈ Spec.NameList.names l →
      (text "password" ∈ Spec.NameList.names l → E.password = none) → Question E (.failure mem len) .askedKey
  | keyboard {mem len n i l ps rest} : mem.take len = infoRequest n i l ps ++ rest → Question E (.info mem len) (.askedKeyboard (shown n i l ps))

/-- How many requests for a method were sent. -/
def requests (name : String) (log : List Ev) : Nat :=
  (log.filter fun e => match e with | .sent _ p => method p == some (text name) | _ => false).length

/-- What a server can send: messages that lie in memory. -/
def Sane : In → Prop
  | .start => True
  | .failure mem len => len ≤ mem.length ∧ len < 2 ^ 32
  | .info mem len => len ≤ mem.length ∧ len < 2 ^ 32
  | .ext mem len => len ≤ mem.length ∧ len < 2 ^ 32

/-- A message announces a list of signature algorithms. -/
def Announces (mem : List UInt8) (len : Nat) (l : List UInt8) : Prop :=
  (encString (text "server-sig-algs") ++ encString l) <:+: mem.take len

/-- The signature algorithms a client may hold for the server's after these events: none, or those one of the messages announced. -/
def Heard (xs : List (Env × In)) (algs : List (List UInt8)) : Prop :=
  algs = [] ∨ ∃ E mem len l, (E, In.ext mem len) ∈ xs ∧ Announces mem len l ∧ algs = Spec.NameList.names l

/-- The user is new to the server, or the same as before. -/
def Bound (a : Wolf.UserAuth.Auth) (user : List UInt8) : Prop :=
  (a.userAuthSeen = false ∧ user ≠ []) ∨ (a.userAuthSeen = true ∧ user = a.userName)

/-- A server of this build: its names, and which algorithms have which verifier. -/
structure Server (E : Wolf.UserAuth.Env) : Prop where
  table : E.table = Wolf.ClientAuth.table
  algos : E.keyAlgos = Wolf.ClientAuth.cannedKeyAlgoClient
  rsa : ∀ i, E.isRsa i = true ↔ i = Wolf.NameList.nameToId Wolf.ClientAuth.table (text "ssh-rsa") ∨
    i ∈ Spec.ClientAuth.rsa.map (Wolf.NameList.nameToId Wolf.ClientAuth.table)
  other : ∀ t ∈ plain, E.isEcc (Wolf.NameList.nameToId Wolf.ClientAuth.table t) = true

/-- A text without the byte NUL. -/
def Text (b : List UInt8) : Prop := (0 : UInt8) ∉ b

end Spec.ClientAuth
