/-!
# Lexical resolution of paths
-/

namespace Spec.Path

/-- A separator: '/' or '\'. -/
def isSep (b : UInt8) : Bool := b == 47 || b == 92

/-- The pieces between separators. -/
def split : List UInt8 → List (List UInt8)
  | [] => [[]]
  | b :: bs =>
    if isSep b then [] :: split bs
    else
      match split bs with
      | [] => [[b]]
      | c :: cs => (b :: c) :: cs

/-- The components of a path: the pieces that are not empty. -/
def components (p : List UInt8) : List (List UInt8) := (split p).filter (· ≠ [])

/-- One step from a directory (its components): "." stays, ".." goes up and stays at the root, a name goes down. -/
def go (dir : List (List UInt8)) (c : List UInt8) : List (List UInt8) :=
  if c = [46] then dir else if c = [46, 46] then dir.dropLast else dir ++ [c]

/-- Lexical resolution. -/
def resolve (dir cs : List (List UInt8)) : List (List UInt8) := cs.foldl go dir

/-- A proper name: not empty, not "." or "..", without separator and NUL. -/
def Name (c : List UInt8) : Prop := c ≠ [] ∧ c ≠ [46] ∧ c ≠ [46, 46] ∧ ∀ b ∈ c, isSep b = false ∧ b ≠ 0

/-- The absolute path of a directory. -/
def render : List (List UInt8) → List UInt8
  | [] => [47]
  | c :: cs => (c :: cs).flatMap (47 :: ·)

/-- `p` is the absolute path with the components `cs`, all of them proper names. -/
def Canonical (p : List UInt8) (cs : List (List UInt8)) : Prop := p = render cs ∧ ∀ c ∈ cs, Name c

/-- The pieces between '/' alone (the separator of POSIX systems). -/
def slashes : List UInt8 → List (List UInt8)
  | [] => [[]]
  | b :: bs =>
    if b = 47 then [] :: slashes bs
    else
      match slashes bs with
      | [] => [[b]]
      | c :: cs => (b :: c) :: cs

/-- The object an absolute path names on a POSIX system without symbolic links. -/
def posixResolve (p : List UInt8) : List (List UInt8) := resolve [] ((slashes p).filter (· ≠ []))

/-- A path that is not absolute: it neither begins with a separator nor has ':' as its second byte. -/
def relative : List UInt8 → Bool
  | [] => true
  | [a] => !isSep a
  | a :: b :: _ => !isSep a && b != 58

/-- The directory a path is resolved from: the start directory for relative paths, the root for the others. -/
def start (default : List (List UInt8)) (p : List UInt8) : List (List UInt8) := if relative p then default else []

/-- The directory `cs` is the root of the jail or below, and - unless the jail is the whole file system - no directory on
the way from the root of the jail to it, and not the object itself, is a symbolic link. -/
def Confined (root : Option (List (List UInt8))) (isLink : List UInt8 → Bool) (cs : List (List UInt8)) : Prop :=
  ∀ rcs, root = some rcs → rcs <+: cs ∧
    (rcs ≠ [] → ∀ k, rcs.length < k → k ≤ cs.length → isLink (render (cs.take k)) = false)

/-- Where the operating system gets when it walks the path `cs` on a file system where the objects at the places `link`
are symbolic links: those may lead anywhere. -/
inductive Walk (link : List (List UInt8) → Prop) : List (List UInt8) → List (List UInt8) → Prop
  | root : Walk link [] []
  | down {a r c} : Walk link a r → ¬ link (r ++ [c]) → Walk link (a ++ [c]) (r ++ [c])
  | follow {a r c} (r') : Walk link a r → link (r ++ [c]) → Walk link (a ++ [c]) r'

/-- What `lstat` says of a path on that file system. -/
def lstatLink (link : List (List UInt8) → Prop) (p : List UInt8) : Prop :=
  ∃ a c r, p = render (a ++ [c]) ∧ (∀ x ∈ a ++ [c], Name x) ∧ Walk link a r ∧ link (r ++ [c])

end Spec.Path
