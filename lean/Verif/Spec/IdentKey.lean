import Verif.Model.IdentKey
/-!
# Specification: which type a key has, and how the objects of a union are used

Of the model only the types and the answers of the decoders are used.
-/

namespace Spec.IdentKey
open Wolf.IdentKey (Kind Id Curve Lvl Env Ev Ret)

/-- The type of keys on a curve. -/
inductive Named : Curve → Id → Prop
  | p256 : Named .secp256r1 .p256
  | p384 : Named .secp384r1 .p384
  | p521 : Named .secp521r1 .p521

/-- The type of keys of a level. -/
inductive OfLevel : Lvl → Id → Prop
  | l44 : OfLevel .l44 .ml44
  | l65 : OfLevel .l65 .ml65
  | l87 : OfLevel .l87 .ml87

/-- The input is a key of this kind and has this type. A public key of ML-DSA may be raw: then it is of the first level in the build
whose size it has. -/
def Takes (e : Env) : Kind → Id → Prop
  | .rsa, i => e.rsa = true ∧ e.rsaInit = true ∧ e.rsaDec e.isPrivate = true ∧ i = .rsa
  | .ecc, i => e.ecdsa = true ∧ e.eccInit = true ∧ (∃ c, e.eccDec e.isPrivate = some c ∧ Named c i) ∧
      (e.isPrivate = true → e.eccPrivOnly = true → e.eccMakePub = true)
  | .mldsa, i => e.mldsa = true ∧ e.mlInit = true ∧
      (((if e.isPrivate then e.mlPriv = some true else e.mlPub = true) ∧ ∃ l, e.params = some l ∧ OfLevel l i) ∨
       (e.isPrivate = false ∧ e.mlPub = false ∧ ∃ a l b, [Lvl.l44, .l65, .l87].filter e.level = a ++ l :: b ∧
          (∀ x ∈ a, e.again x = true ∧ e.raw x = false) ∧ e.again l = true ∧ e.raw l = true ∧ OfLevel l i))
  | .ed, i => e.ed = true ∧ e.edInit = true ∧
      (if e.isPrivate then e.edPriv = some true ∨ (e.edPriv = some false ∧ e.edMake = true) else e.edPub = true) ∧ i = .ed25519

/-- The input is a private key of this kind, but its public key is not there and cannot be computed. -/
def Refuses (e : Env) : Kind → Prop
  | .rsa => False
  | .ecc => e.isPrivate = true ∧ e.ecdsa = true ∧ e.eccInit = true ∧ (∃ c i, e.eccDec true = some c ∧ Named c i) ∧
      e.eccPrivOnly = true ∧ e.eccMakePub = false
  | .mldsa => e.isPrivate = true ∧ e.mldsa = true ∧ e.mlInit = true ∧ e.mlPriv = some false
  | .ed => e.isPrivate = true ∧ e.ed = true ∧ e.edInit = true ∧ e.edPriv = some false ∧ e.edMake = false

/-- The kinds are tried in turn; the first that takes or refuses the input decides. -/
inductive Decides (e : Env) : List Kind → Ret → Prop
  | nothing : Decides e [] .unimplemented
  | takes {k ks i} : Takes e k i → Decides e (k :: ks) (.key i)
  | refuses {k ks} : Refuses e k → Decides e (k :: ks) .crypto
  | next {k ks r} : (∀ i, ¬ Takes e k i) → ¬ Refuses e k → Decides e ks r → Decides e (k :: ks) r

/-- The object for a type. -/
def Object : Id → Kind
  | .rsa => .rsa
  | .p256 | .p384 | .p521 => .ecc
  | .ml44 | .ml65 | .ml87 => .mldsa
  | .ed25519 => .ed

/-- The memory: not allocated, allocated with no object in it, or with one. -/
inductive Mem where
  | gone | empty | holds (k : Kind)
  deriving DecidableEq, Repr

/-- One step; `none`: a leak, something freed twice, or an object used as another. -/
def step : Mem → Ev → Option Mem
  | .gone, .alloc => some .empty
  | .empty, .init k => some (.holds k)
  | .holds k, .free k' => if k = k' then some .empty else none
  | .empty, .release => some .gone
  | _, _ => none

/-- The memory after all steps. -/
def after (m : Mem) : List Ev → Option Mem
  | [] => some m
  | e :: es => (step m e).bind fun m => after m es

end Spec.IdentKey
