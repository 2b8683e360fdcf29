import Verif.Model.PemBundle
/-!
# Files of certificates

A file is lines of text with blocks among them. A block begins with a line of its header and ends with a line of its
footer; it may also be cut off, so that the next block begins before its footer has come.
-/

namespace Spec.PemBundle
open Wolf (Byte Bytes)
open Wolf.PemBundle (Kind header footer)

/-- Lines, each with its end. -/
def lines (ls : List Bytes) : Bytes := ls.flatMap (· ++ [10])

inductive Entry where
  /-- A block, with blanks behind its header and its footer, and the lines after it. -/
  | whole (k : Kind) (t1 : Bytes) (body : List Bytes) (t2 : Bytes) (after : List Bytes)
  /-- A block without a footer. -/
  | cut (k : Kind) (t1 : Bytes) (body : List Bytes)

/-- A block from the first byte of its header to the last of its footer. -/
def block (k : Kind) (t1 : Bytes) (body : List Bytes) : Bytes := header k ++ (t1 ++ 10 :: (lines body ++ footer k))

def render : Entry → Bytes
  | .whole k t1 body t2 after => block k t1 body ++ (t2 ++ 10 :: lines after)
  | .cut k t1 body => header k ++ (t1 ++ 10 :: lines body)

/-- A file may end with a block whose last line has no end. -/
abbrev Last := Option (Kind × Bytes × List Bytes × Bytes)

def renderLast : Last → Bytes
  | none => []
  | some (k, t1, body, t2) => block k t1 body ++ t2

def file (pre : List Bytes) (es : List Entry) (z : Last) : Bytes := lines pre ++ (es.flatMap render ++ renderLast z)

/-- The forms that the build knows. -/
def Form (tr : Bool) (k : Kind) : Prop := k = .cert ∨ tr = true

/-- Blanks, tabs and carriage returns. -/
def Blank (t : Bytes) : Prop := ∀ x ∈ t, x = 32 ∨ x = 9 ∨ x = 13

/-- A line in which no block begins. -/
def Free (tr : Bool) (l : Bytes) : Prop := ∀ k, Form tr k → ¬ header k <:+: l

/-- A line inside of a block: neither does that block end. -/
def Inside (tr : Bool) (k : Kind) (l : Bytes) : Prop := Free tr l ∧ ¬ footer k <:+: l

def Ok (tr : Bool) : Entry → Prop
  | .whole k t1 body t2 after =>
    Form tr k ∧ Blank t1 ∧ (∀ l ∈ body, Inside tr k l) ∧ Blank t2 ∧ ∀ l ∈ after, Free tr l
  | .cut k t1 body => Form tr k ∧ Blank t1 ∧ ∀ l ∈ body, Inside tr k l

def OkLast (tr : Bool) : Last → Prop
  | none => True
  | some (k, t1, body, t2) => Form tr k ∧ Blank t1 ∧ (∀ l ∈ body, Inside tr k l) ∧ Blank t2

/-- The blocks of a file. -/
def blocks (es : List Entry) (z : Last) : List (Kind × Bytes) :=
  es.filterMap (fun e => match e with
    | .whole k t1 body _ _ => some (k, block k t1 body)
    | .cut _ _ _ => none) ++
  (z.map fun x => (x.1, block x.1 x.2.1 x.2.2.1)).toList

/-- How many are cut off. -/
def cuts (es : List Entry) : Nat := es.countP fun e => match e with
  | .cut _ _ _ => true
  | .whole _ _ _ _ _ => false

/-- How many of the first `n` blocks can be loaded. -/
def goods (good : Nat → Bool) (n : Nat) : Nat := (List.range n).countP good

/-- A block of a file: it begins with its header, ends with its footer, and the footer is nowhere before its end. -/
def Sound (inp : Bytes) (x : Kind × Bytes) : Prop :=
  ∃ mid, x.2 = header x.1 ++ (mid ++ footer x.1) ∧ x.2 <:+: inp ∧ ∀ j < mid.length, ¬ footer x.1 <+: (mid ++ footer x.1).drop j

end Spec.PemBundle
