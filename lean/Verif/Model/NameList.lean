import Verif.Model.Wire
/-!
# Algorithm name lists (src/internal.c:3345-3712, 4588-4694, 4799-4830, 5184-5197)

The table `NameIdMap` depends on the build options, so every function takes the table as an
argument; `defaultTable` is the content of the default build's algorithm rows.
-/

namespace Wolf.NameList
open Wolf Wolf.Wire

/-- `enum NameIdType` (wolfssh/internal.h:539-541). -/
inductive AlgoType where
  | kex | key | cipher | mac | other
  deriving DecidableEq, Repr

/-- `NameIdPair` (src/internal.c:3347-3351). -/
structure Entry where
  id : Nat
  type : AlgoType
  name : Bytes
  deriving DecidableEq, Repr

abbrev Table := List Entry

/-- `ID_NONE` (wolfssh/internal.h:423), the first enumerator. -/
def ID_NONE : Nat := 0
/-- `ID_UNKNOWN` (wolfssh/internal.h:535), the last enumerator of the default build; no table
row carries it. -/
def ID_UNKNOWN : Nat := 255

/-- `','`. -/
def comma : Byte := 44

/-- `NameToIdType` (src/internal.c:3578-3601): first row with the same length and bytes;
`ID_UNKNOWN` and an untouched `type` (`TYPE_OTHER` in the caller) otherwise. -/
def nameToIdType : Table → Bytes → Nat × AlgoType
  | [], _ => (ID_UNKNOWN, .other)
  | e :: t, name =>
    if name.length = e.name.length ∧ name = e.name then (e.id, e.type)
    else nameToIdType t name

/-- `NameToId` (src/internal.c:3604-3607). -/
def nameToId (t : Table) (name : Bytes) : Nat := (nameToIdType t name).1

/-- `WOLFSSH_MAX_NAMELIST_SZ`, `WOLFSSH_MAX_NAMELIST_CNT` (wolfssh/internal.h). -/
def MAX_NAMELIST_SZ : Nat := 4096
def MAX_NAMELIST_CNT : Nat := 64

/-- Outcome of the list parsers. -/
inductive NL where
  | ub
  | err (e : Err)
  | ok (ids : List Nat)
  deriving DecidableEq, Repr

/-- The loop of `GetNameListRaw` (src/internal.c:4619-4655): `i` and `start` are the C `i` and
`begin`, `ids` the entries stored so far, `tok` is `tokenCount`. Reading `nameList[i]` outside
the memory is `ub`. -/
def nameListLoop (t : Table) (cap : Nat) (nameList : Bytes) (sz : Nat)
    (i start : Nat) (ids : List Nat) (tok : Nat) : NL :=
  if h : i ≤ sz then
    let sep : Option Bool :=
      if i = sz then some true else (nameList[i]?).map (fun c => c == comma)
    match sep with
    | none => .ub
    | some false => nameListLoop t cap nameList sz (i+1) start ids tok
    | some true =>
      let nameSz := i - start
      if nameSz = 0 then .ok ids
      else if tok + 1 > MAX_NAMELIST_CNT then .err .bufferE
      else if start + nameSz ≤ nameList.length then
        let id := nameToId t ((nameList.drop start).take nameSz)
        if id ≠ ID_UNKNOWN ∨ ids.length = 0 then
          if ids.length ≥ cap then .err .bufferE
          else nameListLoop t cap nameList sz (i+1) (i+1) (ids ++ [id]) (tok+1)
        else nameListLoop t cap nameList sz (i+1) (i+1) ids (tok+1)
      else .ub
  else .ok ids
termination_by sz + 1 - i

/-- `GetNameListRaw` (src/internal.c:4588-4660): `sz` is `nameListSz`. -/
def getNameListRaw (t : Table) (cap : Nat) (nameList : Bytes) (sz : Nat) : NL :=
  if sz > MAX_NAMELIST_SZ then .err .bufferE
  else nameListLoop t cap nameList sz 0 0 [] 0

/-- `GetNameList` (src/internal.c:4663-4694): a string field, then the list in it. The cursor
is past the field on success; `len = 0` is a bad argument. -/
def getNameList (t : Table) (cap : Nat) (mem : Bytes) (len idx : Nat) : Res (List Nat) :=
  if len = 0 then .err .badArgument idx
  else
    match getStringRef mem len idx with
    | .ok r idx1 =>
      match deref mem r with
      | none => .ub
      | some s =>
        match getNameListRaw t cap s r.sz with
        | .ub => .ub
        | .err e => .err e idx1
        | .ok ids => .ok ids idx1
    | .err e i => .err e i
    | .ub => .ub

/-- Inner loop of `MatchIdLists`: is `x` in `right` (src/internal.c:4818-4826). -/
def matchInner (x : Nat) : List Nat → Bool
  | [] => false
  | y :: ys => if x = y then true else matchInner x ys

/-- Outer loop of `MatchIdLists` (src/internal.c:4816-4827). -/
def matchOuter : List Nat → List Nat → Nat
  | [], _ => ID_UNKNOWN
  | x :: xs, right => if matchInner x right then x else matchOuter xs right

inductive Side where
  | server | client
  deriving DecidableEq, Repr

/-- `MatchIdLists` (src/internal.c:4799-4830). -/
def matchIdLists (side : Side) (left right : List Nat) : Nat :=
  let (left, right) := if side = .client then (right, left) else (left, right)
  if left.length > 0 ∧ right.length > 0 then matchOuter left right else ID_UNKNOWN

/-- `AlgoListSz` (src/internal.c:5184-5197): one trailing comma is not counted. -/
def algoListSz (l : Bytes) : Nat :=
  if l.length > 0 ∧ l[l.length - 1]? = some comma then l.length - 1 else l.length

/-- The loop of `CheckAlgoList` (src/internal.c:3660-3704) in a build without
`WOLFSSH_ALLOW_NONE_CIPHER`; `usable` is `usableCount`. `none` is
`WS_INVALID_ALGO_ID` from inside the loop. -/
def checkAlgoLoop (t : Table) (type : AlgoType) (list : Bytes)
    (i start usable : Nat) : Option Nat :=
  if h : i ≤ list.length then
    if i = list.length ∨ list[i]? = some comma then
      let nameSz := i - start
      if nameSz = 0 then
        if i ≠ list.length ∨ i = 0 then none
        else checkAlgoLoop t type list (i+1) (i+1) usable
      else
        let (id, tokenType) := nameToIdType t ((list.drop start).take nameSz)
        if id = ID_NONE then none
        else if id ≠ ID_UNKNOWN then
          if tokenType ≠ type then none
          else checkAlgoLoop t type list (i+1) (i+1) (usable + 1)
        else checkAlgoLoop t type list (i+1) (i+1) usable
    else checkAlgoLoop t type list (i+1) start usable
  else some usable
termination_by list.length + 1 - i

/-- `CheckAlgoList` (src/internal.c:3646-3712), list not NULL: `true` is `WS_SUCCESS`. -/
def checkAlgoList (t : Table) (type : AlgoType) (list : Bytes) : Bool :=
  match checkAlgoLoop t type list 0 0 0 with
  | none => false
  | some usable => !(usable == 0)

/-- Bytes of an ASCII literal. -/
def asc (s : String) : Bytes := s.toList.map (fun c => UInt8.ofNat c.toNat)

/-- Some rows of the default build's `NameIdMap` (src/internal.c:3354-3562), in table order,
with ids as numbered by the enumeration at wolfssh/internal.h:421-536. -/
def defaultTable : Table :=
  [⟨0, .other, asc "none"⟩,
   ⟨1, .cipher, asc "aes128-cbc"⟩, ⟨2, .cipher, asc "aes192-cbc"⟩, ⟨3, .cipher, asc "aes256-cbc"⟩,
   ⟨4, .cipher, asc "aes128-ctr"⟩, ⟨5, .cipher, asc "aes192-ctr"⟩, ⟨6, .cipher, asc "aes256-ctr"⟩,
   ⟨7, .cipher, asc "aes128-gcm@openssh.com"⟩, ⟨8, .cipher, asc "aes192-gcm@openssh.com"⟩,
   ⟨9, .cipher, asc "aes256-gcm@openssh.com"⟩,
   ⟨10, .mac, asc "hmac-sha1"⟩, ⟨11, .mac, asc "hmac-sha1-96"⟩,
   ⟨12, .mac, asc "hmac-sha2-256"⟩, ⟨13, .mac, asc "hmac-sha2-512"⟩,
   ⟨15, .kex, asc "diffie-hellman-group14-sha1"⟩, ⟨16, .kex, asc "diffie-hellman-group14-sha256"⟩,
   ⟨17, .kex, asc "diffie-hellman-group16-sha512"⟩,
   ⟨18, .kex, asc "diffie-hellman-group-exchange-sha256"⟩,
   ⟨19, .kex, asc "ecdh-sha2-nistp256"⟩, ⟨20, .kex, asc "ecdh-sha2-nistp384"⟩,
   ⟨21, .kex, asc "ecdh-sha2-nistp521"⟩,
   ⟨22, .other, asc "ext-info-s"⟩, ⟨23, .other, asc "ext-info-c"⟩,
   ⟨24, .key, asc "ssh-rsa"⟩, ⟨25, .key, asc "rsa-sha2-256"⟩, ⟨26, .key, asc "rsa-sha2-512"⟩,
   ⟨27, .key, asc "ecdsa-sha2-nistp256"⟩, ⟨28, .key, asc "ecdsa-sha2-nistp384"⟩,
   ⟨29, .key, asc "ecdsa-sha2-nistp521"⟩, ⟨30, .key, asc "ssh-ed25519"⟩]

end Wolf.NameList
