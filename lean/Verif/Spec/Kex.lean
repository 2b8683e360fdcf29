import Verif.Spec.Wire
import Verif.Spec.NameList
/-!
# Specification of KEXINIT and of the negotiation (RFC 4253 section 7.1)
-/

namespace Spec.Kex

/-- The fields of SSH_MSG_KEXINIT after the message number. -/
structure KexInit where
  cookie : List UInt8
  kex : List UInt8
  hostKey : List UInt8
  encC2S : List UInt8
  encS2C : List UInt8
  macC2S : List UInt8
  macS2C : List UInt8
  compC2S : List UInt8
  compS2C : List UInt8
  langC2S : List UInt8
  langS2C : List UInt8
  follows : UInt8
  reserved : Nat
  deriving DecidableEq, Repr

/-- The layout of the message. -/
def parse (p : List UInt8) : Option (KexInit × List UInt8) :=
  if p.length < 16 then none else do
    let (kex, r) ← Spec.Wire.string (p.drop 16)
    let (hostKey, r) ← Spec.Wire.string r
    let (encC2S, r) ← Spec.Wire.string r
    let (encS2C, r) ← Spec.Wire.string r
    let (macC2S, r) ← Spec.Wire.string r
    let (macS2C, r) ← Spec.Wire.string r
    let (compC2S, r) ← Spec.Wire.string r
    let (compS2C, r) ← Spec.Wire.string r
    let (langC2S, r) ← Spec.Wire.string r
    let (langS2C, r) ← Spec.Wire.string r
    let (follows, r) ← Spec.Wire.byte r
    let (reserved, r) ← Spec.Wire.uint32 r
    return (⟨p.take 16, kex, hostKey, encC2S, encS2C, macC2S, macS2C, compC2S, compS2C,
      langC2S, langS2C, follows, reserved⟩, r)

/-- Identifiers of the supported names of a list, in order. -/
def ids (tbl : List (Nat × List UInt8)) (l : List UInt8) : List Nat :=
  (Spec.NameList.names l).filterMap (Spec.NameList.supported tbl)

/-- The negotiated identifier: the first of the client's that the server has too. `isServer`
says which end we are; `peer` and `own` are the identifiers of the two lists. -/
def pick (isServer : Bool) (peer own : List Nat) : Option Nat :=
  if isServer then Spec.NameList.choose peer own else Spec.NameList.choose own peer

end Spec.Kex
