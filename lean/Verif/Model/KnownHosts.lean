import Verif.Model.Buffer
import Verif.Model.OsshCert
/-!
# The example client `wolfssh`: known hosts and destinations

`ClientPublicKeyCheck` (apps/wolfssh/common.c:351-602), the callback with which the client decides whether to trust the host key of a
server, and `ClientParseDestination` (927-1053).

Strings of C are byte lists without their terminator. Simplified: allocations succeed; nobody else changes the file of known hosts
between reading it and adding to it; `Base64_Encode_NoNl` into 1200 bytes and the fingerprint are inputs, and so is what the
file system and the user do.
-/

namespace Wolf.KnownHosts
open Wolf Wolf.Wire
open Wolf.OsshCert (andThen)

/-- A C string in memory: up to the first NUL. -/
def cstr (b : Bytes) : Bytes := b.takeWhile (· ≠ 0)

/-- `strsep(&s, d)` for a delimiter of one byte (`WSTRSEP`, wolfssh/port.h:589): the token and what `s` is then. -/
def strsep (d : Byte) : Option Bytes → Option Bytes × Option Bytes
  | none => (none, none)
  | some s => (some (s.takeWhile (· ≠ d)), match s.dropWhile (· ≠ d) with | [] => none | _ :: t => some t)

/-- `IsFieldStorable` (apps/wolfssh/common.c:193-211). -/
def storable (field : Bytes) : Bool := field ≠ [] ∧ field.all fun b => ¬ (b ≤ 32 ∨ b = 0x7f)

/-- What a line of the file means for a key: nothing, the key, another key of this server, this key of another server. -/
inductive Line where
  | nothing
  | found
  | bad
  | other
  deriving DecidableEq, Repr

/-- A line of the file (apps/wolfssh/common.c:450-493). -/
def lookLine (target type key line : Bytes) : Line :=
  if line = [] then .nothing
  else
    let line := if line.getLast? = some 13 then line.dropLast else line
    let (name, l) := strsep 32 (some line)
    let (keyType, l) := strsep 32 l
    let (k, _) := strsep 32 l
    match name, keyType, k with
    | some name, some keyType, some k =>
      if target = name then
        if type = keyType then if key = k then .found else .bad else .nothing
      else if type = keyType ∧ key = k then .other else .nothing
    | _, _, _ => .nothing

/-- `found`, `badMatch`, `otherMatch`. -/
structure Flags where
  found : Bool := false
  bad : Bool := false
  other : Bool := false
  deriving DecidableEq, Repr

theorem strsep_shorter {d : Byte} {s r : Bytes} (h : (strsep d (some s)).2 = some r) : r.length < s.length := by
  unfold strsep at h
  simp only at h
  have hle : (s.dropWhile (· ≠ d)).length ≤ s.length := (List.dropWhile_suffix _).length_le
  split at h
  · cases h
  · rename_i b t heq
    cases h
    rw [heq, List.length_cons] at hle
    omega

/-- The loop over the lines (apps/wolfssh/common.c:446-495). -/
def scan (target type key : Bytes) (cursor : Bytes) (other : Bool) : Flags :=
  let r := strsep 10 (some cursor)
  match r.1 with
  | none => { other := other }
  | some line =>
    match lookLine target type key line with
    | .found => { found := true, other := other }
    | .bad => { bad := true, other := other }
    | l =>
      let other := other || l = .other
      match h : r.2 with
      | none => { other := other }
      | some rest => scan target type key rest other
termination_by cursor.length
decreasing_by exact strsep_shorter h

/-- The type in front of a host key (apps/wolfssh/common.c:412-429), as a C string in 54 bytes. -/
def keyType (pubKey : Bytes) : Option Bytes :=
  match pubKey with
  | a :: b :: c :: d :: rest =>
    let sz := ato32 a b c d
    if sz > rest.length ∨ sz > 53 then none else some (cstr (rest.take sz))
  | _ => none

/-- What the surroundings do: is `HOME` set; the file, if it can be read; base64; does the fingerprint work; what the user types;
can the file be read when something is to be added, and opened for adding; how many bytes are added if not all. -/
structure Env where
  home : Bool := true
  file : Option Bytes
  enc : Bytes → Option Bytes
  fingerprint : Bool := true
  answer : Option Byte
  reread : Bool := true
  opens : Bool := true
  fails : Option Nat := none

/-- What the check comes to: is the key accepted, was the user asked, the file. -/
structure Result where
  ok : Bool
  asked : Bool := false
  file : Option Bytes
  deriving DecidableEq, Repr

/-- The entry (apps/wolfssh/common.c:264-265). -/
def entry (nl : Bool) (name type key : Bytes) : Bytes := (if nl then [10] else []) ++ name ++ [32] ++ type ++ [32] ++ key ++ [10]

/-- `AppendKeyToFile`, `AppendNeedsNewline` (apps/wolfssh/common.c:216-283). -/
def append (E : Env) (file name type key : Bytes) : Result :=
  if storable name ∧ storable type ∧ storable key then
    let nl := E.reread && (match file.getLast? with | none => false | some b => b ≠ 10)
    if E.opens then
      match E.fails with
      | none => ⟨true, true, some (file ++ entry nl name type key)⟩
      | some n => ⟨false, true, some (file ++ (entry nl name type key).take n)⟩
    else ⟨false, true, some file⟩
  else ⟨false, true, some file⟩

/-- The question and what follows (apps/wolfssh/common.c:332-344, 504-540). -/
def ask (E : Env) (file name type key : Bytes) : Result :=
  if E.answer = some 89 then append E file name type key else ⟨false, true, some file⟩

/-- What is decided (apps/wolfssh/common.c:497-541). -/
def decideKey (E : Env) (file target type key : Bytes) (f : Flags) : Result :=
  if f.bad then ⟨false, false, some file⟩
  else if f.other then if f.found then ⟨true, false, some file⟩ else ask E file target type key
  else if f.found then ⟨true, false, some file⟩
  else ask E file target type key

/-- `ClientPublicKeyCheck` (apps/wolfssh/common.c:351-541, `load_text_file` 73-118): the file has at least four bytes and fewer than
2^31. -/
def check (E : Env) (target pubKey : Bytes) : Result :=
  match E.home, E.file with
  | true, some file =>
    if file.length < 4 ∨ 2 ^ 31 ≤ file.length then ⟨false, false, E.file⟩
    else
      match keyType pubKey, E.enc pubKey, E.fingerprint with
      | some type, some key, true => decideKey E file target type key (scan target type key (cstr file) false)
      | _, _, _ => ⟨false, false, E.file⟩
  | _, _ => ⟨false, false, E.file⟩

/-- `ParseRFC6187` (apps/wolfssh/common.c:127-178): the first certificate of a chain. -/
def leaf (b : Bytes) : Res Bytes :=
  andThen (getUint32 b b.length 0) fun l m =>
  if l > b.length - m then .err .bufferE m
  else
    andThen (getUint32 b b.length (m + l)) fun count m =>
    if count = 0 then .err .fatal m
    else
      andThen (getUint32 b b.length m) fun sz m =>
      if b.length - m < sz then .err .bufferE m
      else match Buffer.read b m sz with
        | some der => .ok der (m + sz)
        | none => .ub

/-- The end of `ClientPublicKeyCheck` when built with certificates (apps/wolfssh/common.c:543-591): `addrs` are the addresses in a
certificate, if it parses; `override` is `IPOverride`. -/
def certCheck (addrs : Bytes → Option (List Bytes)) (override : Bool) (target pubKey : Bytes) (r : Result) : Result :=
  match leaf pubKey with
  | .ok der _ =>
    match addrs der with
    | some l => if r.ok ∧ l.any (· = target) then r else { r with ok := override }
    | none => r
  | _ => r

/-! ## Destinations -/

/-- `isspace`. -/
def isSpace (b : Byte) : Bool := b = 32 ∨ (9 ≤ b ∧ b ≤ 13)

/-- `isdigit`. -/
def isDigit (b : Byte) : Bool := 48 ≤ b ∧ b ≤ 57

/-- The number written by digits. -/
def digits (ds : Bytes) : Nat := ds.foldl (fun n b => 10 * n + (b.toNat - 48)) 0

/-- `strtol(s, &end, 10)`: the value and what is left at `end`; `none` if there is no number. -/
def strtol (s : Bytes) : Option (Int × Bytes) :=
  let s := s.dropWhile isSpace
  let (neg, s) : Bool × Bytes := match s with
    | 45 :: t => (true, t)
    | 43 :: t => (false, t)
    | s => (false, s)
  let ds := s.takeWhile isDigit
  if ds = [] then none
  else some (if neg then - (digits ds : Int) else digits ds, s.dropWhile isDigit)

/-- `"ssh://"`. -/
def uriPrefix : Bytes := [115, 115, 104, 58, 47, 47]

/-- `strchr(s, c)`: what is before the character and behind it. -/
def strchr (c : Byte) (s : Bytes) : Option (Bytes × Bytes) :=
  match s.dropWhile (· ≠ c) with
  | [] => none
  | _ :: t => some (s.takeWhile (· ≠ c), t)

/-- The caller's user, host name and port. -/
structure Dest where
  user : Option Bytes
  host : Option Bytes
  port : Nat
  deriving DecidableEq, Repr

/-- The port (apps/wolfssh/common.c:1003-1015). -/
def parsePort (text : Bytes) (old : Nat) : Option Nat :=
  if text = [] then some old
  else
    match strtol text with
    | none => none
    | some (v, rest) => if rest ≠ [] ∨ v < 1 ∨ v > 65535 then none else some v.toNat

/-- The user name and the rest (apps/wolfssh/common.c:964-980). -/
def splitUser (cursor : Bytes) : Option Bytes × Bytes :=
  match strchr 64 cursor with
  | some (u, rest) => (some u, rest)
  | none => (none, cursor)

/-- `ClientParseDestination` (apps/wolfssh/common.c:927-1053): the error and the caller's values. -/
def parseDest (s : Bytes) (d : Dest) : Option Err × Dest :=
  let uri := uriPrefix.isPrefixOf s
  let cursor := if uri then s.drop 6 else s
  let (user, cursor) := splitUser cursor
  let (host, port) : Bytes × Option Bytes := match (if uri then strchr 58 cursor else none) with
    | some (h, p) => (h, some p)
    | none => (cursor, none)
  let newHost := if host = [] then none else some host
  match (match port with | none => some d.port | some p => parsePort p d.port) with
  | none => (some .badArgument, d)
  | some n => (none, ⟨user.or d.user, newHost.or d.host, n⟩)

end Wolf.KnownHosts
