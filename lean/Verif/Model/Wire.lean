import Verif.Model.Basic
/-!
# Wire-format primitives (src/internal.c:4385-4583, src/misc.c)

A reader works on real memory `mem` (the bytes that exist behind the C pointer `buf`), the
length `len` the caller claims, and the cursor `idx` (`*idx`). Touching a byte outside `mem`
is the outcome `ub`.
-/

namespace Wolf.Wire
open Wolf

/-- Outcome of a reader: undefined behaviour, an error with the cursor left behind, or a value
with the new cursor. -/
inductive Res (α : Type) where
  | ub
  | err (e : Err) (idx : Nat)
  | ok (v : α) (idx : Nat)
  deriving DecidableEq, Repr

/-- `ato32` (src/misc.c:66-79): four bytes, most significant first, via shift and or. -/
def ato32 (a b c d : Byte) : Nat :=
  ((((((a.toNat &&& 0xFF) <<< 8) ||| (b.toNat &&& 0xFF)) <<< 8)
      ||| (c.toNat &&& 0xFF)) <<< 8) ||| (d.toNat &&& 0xFF)

/-- `c32toa` (src/misc.c:82-89): the four bytes written for a `word32`. -/
def c32toa (u : Nat) : Bytes :=
  [UInt8.ofNat ((u >>> 24) &&& 0xff), UInt8.ofNat ((u >>> 16) &&& 0xff),
   UInt8.ofNat ((u >>> 8) &&& 0xff), UInt8.ofNat (u &&& 0xff)]

/-- `GetBoolean` (src/internal.c:4387-4398). Returns the raw byte, as the C does. -/
def getBoolean (mem : Bytes) (len idx : Nat) : Res Byte :=
  if idx < len then
    match mem[idx]? with
    | some b => .ok b (add32 idx 1)
    | none => .ub
  else .err .bufferE idx

/-- `GetUint32` (src/internal.c:4401-4412). -/
def getUint32 (mem : Bytes) (len idx : Nat) : Res Nat :=
  if idx < len ∧ 4 ≤ sub32 len idx then
    match mem[idx]?, mem[idx+1]?, mem[idx+2]?, mem[idx+3]? with
    | some a, some b, some c, some d => .ok (ato32 a b c d) (add32 idx 4)
    | _, _, _, _ => .ub
  else .err .bufferE idx

/-- `GetUint64` (src/internal.c:4416-4428). -/
def getUint64 (mem : Bytes) (len idx : Nat) : Res Nat :=
  match getUint32 mem len idx with
  | .ok hi idx1 =>
    match getUint32 mem len idx1 with
    | .ok lo idx2 => .ok ((hi <<< 32) ||| lo) idx2
    | .err e i => .err e i
    | .ub => .ub
  | .err e i => .err e i
  | .ub => .ub

/-- `GetSize` (src/internal.c:4432-4444): a length that must fit in what remains. -/
def getSize (mem : Bytes) (len idx : Nat) : Res Nat :=
  match getUint32 mem len idx with
  | .ok v idx1 => if v > sub32 len idx1 then .err .bufferE idx1 else .ok v idx1
  | .err e i => .err e i
  | .ub => .ub

/-- `GetSkip` (src/internal.c:4447-4464). -/
def getSkip (mem : Bytes) (len idx : Nat) : Res Unit :=
  match getSize mem len idx with
  | .ok sz idx1 =>
    if idx1 ≤ len ∧ sz ≤ sub32 len idx1 then .ok () (add32 idx1 sz) else .err .bufferE idx1
  | .err e i => .err e i
  | .ub => .ub

/-- A string reference: `off = none` is the NULL pointer the C stores for an empty string. -/
structure StrRef where
  off : Option Nat
  sz : Nat
  deriving DecidableEq, Repr

/-- `GetStringRef` (src/internal.c:4557-4583), with non-NULL out parameters. -/
def getStringRef (mem : Bytes) (len idx : Nat) : Res StrRef :=
  match getUint32 mem len idx with
  | .ok sz idx1 =>
    if idx1 ≤ len ∧ sz ≤ sub32 len idx1 then
      if sz ≠ 0 then .ok ⟨some idx1, sz⟩ (add32 idx1 sz) else .ok ⟨none, 0⟩ idx1
    else .err .bufferE idx1
  | .err e i => .err e i
  | .ub => .ub

/-- The bytes a reference designates, `none` if they are not all inside memory
(`WMEMCPY(dst, str, sz)` from it). -/
def deref (mem : Bytes) (r : StrRef) : Option Bytes :=
  match r.off with
  | none => if r.sz = 0 then some [] else none
  | some o => if o + r.sz ≤ mem.length then some ((mem.drop o).take r.sz) else none

/-- `GetMpint` (src/internal.c:4470-4486): a string whose first byte must not have the sign
bit. The C reads `**mpint` when the size is positive. -/
def getMpint (mem : Bytes) (len idx : Nat) : Res StrRef :=
  match getStringRef mem len idx with
  | .ok r idx1 =>
    if r.sz > 0 then
      match r.off with
      | none => .ub
      | some o =>
        match mem[o]? with
        | none => .ub
        | some b => if (b &&& 0x80) ≠ 0 then .err .parseE idx1 else .ok r idx1
    else .ok r idx1
  | .err e i => .err e i
  | .ub => .ub

/-- `GetString` (src/internal.c:4490-4515): copy as much as fits in a destination of `cap`
bytes, NUL-terminated. The value is what ends up in the destination: the copied bytes followed
by the terminator; `ub` if that does not fit in `cap` bytes. -/
def getString (cap : Nat) (mem : Bytes) (len idx : Nat) : Res Bytes :=
  if cap = 0 then .err .bufferE idx
  else
    match getStringRef mem len idx with
    | .ok r idx1 =>
      let n := if r.sz ≥ cap then sub32 cap 1 else r.sz
      let copied := if r.sz ≠ 0 ∧ r.off ≠ none then deref mem ⟨r.off, n⟩ else some []
      match copied with
      | none => .ub
      | some bs => if n < cap then .ok (bs ++ [0]) idx1 else .ub
    | .err e i => .err e i
    | .ub => .ub

/-- `GetStringAlloc` (src/internal.c:4519-4553) with a successful allocation of
`strSz + 1` (32-bit) bytes; writing the terminator outside it is `ub`. -/
def getStringAlloc (mem : Bytes) (len idx : Nat) : Res Bytes :=
  match getStringRef mem len idx with
  | .ok r idx1 =>
    let alloc := add32 r.sz 1
    match deref mem r with
    | none => .ub
    | some bs => if r.sz < alloc then .ok bs idx1 else .ub
  | .err e i => .err e i
  | .ub => .ub

/-- Number of leading zero bytes (the scan `for (i = 0; i < *sz; i++)` of
src/internal.c:5704-5707). -/
def leadingZeros : Bytes → Nat
  | [] => 0
  | b :: bs => if b ≠ 0x00 then 0 else leadingZeros bs + 1

/-- `CreateMpint` (src/internal.c:5691-5733): returns the bytes left in the buffer and the
`pad` flag; `pad0` is the caller's initial value of `*pad`, kept when the buffer is empty. -/
def createMpint (buf : Bytes) (pad0 : Nat) : Bytes × Nat :=
  if buf.length = 0 then (buf, pad0)
  else
    let i := leadingZeros buf
    if i = buf.length then ([], 0)
    else
      let pad := if (buf.getD i 0 &&& 0x80) ≠ 0 then 1 else 0
      let (i, pad) := if i > 0 ∧ pad = 1 then (i - 1, 0) else (i, pad)
      (buf.drop i, pad)

/-- How callers put the result on the wire or into the hash, e.g. src/internal.c:5741-5760:
the length `sz + pad`, `pad` zero bytes, the buffer. -/
def mpintOnWire (r : Bytes × Nat) : Bytes :=
  c32toa (r.1.length + r.2) ++ List.replicate r.2 0 ++ r.1

/-- `ConstantCompare` (src/misc.c:104-115) on the first `length` bytes of both arguments;
`none` when a byte outside either is read. The C accumulates `|=` in a `word32`. -/
def constantCompare (a b : Bytes) (length : Nat) : Option Nat :=
  if length ≤ a.length ∧ length ≤ b.length then
    some (((a.take length).zip (b.take length)).foldl (fun s p => s ||| (p.1 ^^^ p.2).toNat) 0)
  else none

end Wolf.Wire
