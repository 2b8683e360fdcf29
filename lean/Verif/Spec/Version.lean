import Verif.Model.Receive
import Verif.Model.NameList
import Verif.Spec.Buffer
import Verif.Spec.Wire
/-!
# The version exchange (RFC 4253 section 4.2)
-/

namespace Spec.Version
open Wolf Wolf.Receive Wolf.NameList

/-- A line as it is sent: a text without line feed or NUL, then CR LF or a bare LF; at most 255 bytes
in all. -/
def Line (text raw : Bytes) : Prop :=
  (raw = text ++ [13, 10] ∨ (raw = text ++ [10] ∧ ¬ ∃ t, text = t ++ [13])) ∧
  10 ∉ text ∧ 0 ∉ text ∧ raw.length ≤ 255

/-- A line that is not an identification. -/
def Banner (raw : Bytes) : Prop := (∃ text, Line text raw) ∧ ¬ asc "SSH-" <+: raw

/-- An identification of protocol version 2.0. -/
def Ident (text : Bytes) : Prop := asc "SSH-2.0-" <+: text

/-- The peer said `banners`, then identified itself with `text`; `rest` follows. -/
structure Greeting (client : Bool) (stream : Bytes) (banners : List Bytes) (text rest : Bytes) : Prop where
  stream : ∃ raw, Line text raw ∧ stream = banners.flatten ++ (raw ++ rest)
  ident : Ident text
  banner : ∀ b ∈ banners, Banner b
  few : banners.length ≤ 10
  server : client = false → banners = []

/-- The bytes of the peer not yet consumed. -/
def pending (v : Ver) : Bytes := Spec.Buffer.unread v.inp ++ v.net

/-- Before anything was received. -/
structure Fresh (v : Ver) : Prop where
  inp : Spec.Buffer.Ok v.inp
  empty : Spec.Buffer.unread v.inp = []
  banners : v.bannerLines = 0
  id : v.protoId = none
  notDone : v.done = false

/-- One attempt of `wolfSSH_accept` or `wolfSSH_connect` at reading the version: allocator, memory for
the identification, what the static buffer holds, the transport's answers. -/
structure Call where
  alloc : Nat → Option Bytes
  mem : Bool
  static : Bytes
  io : List IoRecv

/-- The allocator works, the static buffer has 16 bytes. -/
def Call.Ok (c : Call) : Prop := Spec.Buffer.Allocator c.alloc ∧ c.static.length = 16

/-- Attempts one after the other, whatever each of them returned. -/
def attempts (v : Ver) : List Call → Option (List (Option Err) × Ver)
  | [] => some ([], v)
  | c :: cs => do
    let (r, v) ← versionStep c.alloc c.mem c.static c.io v
    let (rs, v) ← attempts v cs
    some (r :: rs, v)

end Spec.Version
