/-!
# Specification of name-lists and negotiation (RFC 4251 section 5, RFC 4253 section 7.1)
-/

namespace Spec.NameList

/-- Split at every comma; the empty string is one empty element. -/
def split (c : UInt8) : List UInt8 → List (List UInt8)
  | [] => [[]]
  | b :: bs =>
    if b = c then [] :: split c bs
    else match split c bs with
      | [] => [[b]]
      | w :: ws => (b :: w) :: ws

/-- The names of a list: its elements up to the first empty one. -/
def names (l : List UInt8) : List (List UInt8) :=
  (split 44 l).takeWhile (fun w => !w.isEmpty)

/-- A table row: identifier and name. `supported tbl name` is the identifier of a supported
name. -/
def supported (tbl : List (Nat × List UInt8)) (name : List UInt8) : Option Nat :=
  (tbl.find? (fun r => r.2 = name)).map (·.1)

/-- The choice RFC 4253 section 7.1 prescribes: the first entry of the client's list that is also
in the server's, among identifiers of supported algorithms. -/
def choose (client server : List Nat) : Option Nat :=
  client.find? (fun c => server.contains c)

end Spec.NameList

namespace Spec.NameList

/-- A table row with its category. -/
structure Row where
  id : Nat
  cat : Nat
  name : List UInt8

/-- A list without one trailing comma. -/
def body (l : List UInt8) : List UInt8 :=
  if l.getLast? = some 44 then l.dropLast else l

/-- What the setters must accept: non-empty elements (one trailing comma tolerated), no element
naming the null algorithm (identifier 0), supported elements all of category `cat`, and at least
one supported element. The first row with a name is the one that counts. -/
def ValidAlgoList (tbl : List Row) (cat : Nat) (l : List UInt8) : Prop :=
  (∀ w ∈ split 44 (body l), w ≠ [] ∧
    ∀ r, tbl.find? (fun r => r.name = w) = some r → r.id ≠ 0 ∧ r.cat = cat) ∧
  (∃ w ∈ split 44 (body l), ∃ r, tbl.find? (fun r => r.name = w) = some r)

end Spec.NameList
