import Verif.Model.Agent
import Verif.Spec.Wire
/-!
# The agent protocol (draft-ietf-sshm-ssh-agent), as far as signing goes

Every message is a string: its first byte is the type. `SSH_AGENT_FAILURE` is 5, `SSH_AGENTC_SIGN_REQUEST` 13 and
`SSH_AGENT_SIGN_RESPONSE` 14.
-/

namespace Spec.Agent
open Wolf Wolf.Agent Spec.Wire

/-- The request to sign `data` with the key `key` (3.6). -/
def signMessage (key data : List UInt8) (flags : Nat) : List UInt8 :=
  encString (13 :: (encString key ++ encString data ++ encUint32 flags))

/-- The answer with a signature (3.6.1), and the refusal (3.1). -/
def signAnswer (sig : List UInt8) : List UInt8 := encString (14 :: encString sig)
def refusal : List UInt8 := encString [5]

/-- The type of the message some bytes begin with, if they hold all of it. -/
def msgType (rx : List UInt8) : Option UInt8 :=
  match string rx with
  | some (t :: _, _) => some t
  | _ => none

/-- The signature some received bytes hold, if they begin with an answer that has one. -/
def sigIn (rx : List UInt8) : Option (List UInt8) :=
  match string rx with
  | some (14 :: body, _) => (string body).map (·.1)
  | _ => none

/-- An agent that signs with `sign` and refuses everything else: its answer to some bytes. -/
def agent (sign : List UInt8 → List UInt8 → Nat → Option (List UInt8)) (m : List UInt8) : List UInt8 :=
  match string m with
  | some (13 :: body, []) =>
    match string body with
    | none => refusal
    | some (key, r) =>
      match string r with
      | none => refusal
      | some (data, r) =>
        match uint32 r with
        | some (flags, []) =>
          match sign key data flags with
          | some s => signAnswer s
          | none => refusal
        | _ => refusal
  | _ => refusal

/-- The message types the code knows. -/
def known : List UInt8 := [5, 6, 11, 12, 13, 14, 17, 18, 19, 22, 23]

/-- What the application's callbacks promise: the I/O callback is set, and it reads at most the 2048 bytes it has room
for. -/
def Fair (P : Peer) : Prop := P.io = true ∧ ∀ m, (P.rx m).2.length = 2048 ∧ (P.rx m).1 ≤ 2048

/-- The cryptography makes signatures that fit the buffer they are made in. -/
def Sane (E : Env) : Prop := ∀ i d f n, E.sign i d f = .ok n → n ≤ 1024

/-- The bytes an agent has given: what the read left of the buffer. -/
def received (P : Peer) (m : List UInt8) : List UInt8 := (P.rx m).2.take (P.rx m).1.toNat

/-- Everything an identity points at is in its buffer. -/
def IdentOk (i : Ident) : Prop :=
  i.blobSz ≤ i.buf.length ∧ i.fields ≠ [] ∧ ∀ f ∈ i.fields, f.1 + f.2 ≤ i.buf.length

/-- What the identities take in an answer that lists them. -/
def weight : List Ident → Nat
  | [] => 0
  | i :: l => 8 + i.blobSz + i.comment.2 + weight l

/-- A context whose identities are sound and take at most `n` bytes. -/
def Sound (a : Ctx) (n : Nat) : Prop := (∀ i ∈ a.ids, IdentOk i) ∧ weight a.ids ≤ n

end Spec.Agent
