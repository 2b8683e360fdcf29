import Verif.Model.Basic
/-!
# Byte buffers (`WOLFSSH_BUFFER`, wolfssh/internal.h:737-748, src/internal.c:4031-4151, 12003-12040)

Memory is explicit: `mem` is the memory behind `buf->buffer`. A copy that leaves it, or a
`memcpy` whose source and destination overlap, is undefined behaviour (`none`). Scrubbing released
memory (`WS_FORCEZERO`) is not modelled, the memory is gone. `plainSz` and `heap` are left out.
-/

namespace Wolf.Buffer
open Wolf

/-- `STATIC_BUFFER_LEN` is `AES_BLOCK_SIZE` (wolfssh/internal.h:733). -/
def STATIC_BUFFER_LEN : Nat := 16

/-- `WOLFSSH_BUFFER` (wolfssh/internal.h:737-748). `dyn = false` means `buffer` points at
`staticBuffer`. -/
structure Buf where
  mem : Bytes
  bufferSz : Nat
  length : Nat
  idx : Nat
  dyn : Bool
  deriving DecidableEq, Repr

/-- `WMEMCPY(mem + off, data, |data|)` into memory that does not contain `data`. -/
def write (mem : Bytes) (off : Nat) (data : Bytes) : Option Bytes :=
  if off + data.length ≤ mem.length then
    some (mem.take off ++ data ++ mem.drop (off + data.length))
  else none

/-- `n` bytes at `mem + off`. -/
def read (mem : Bytes) (off n : Nat) : Option Bytes :=
  if off + n ≤ mem.length then some ((mem.drop off).take n) else none

/-- `BufferInit` (src/internal.c:4031-4051); `alloc` is the memory `WMALLOC(size)` returned
(`none`: it failed). -/
def bufferInit (size : Nat) (alloc : Option Bytes) : Option Err × Option Buf :=
  let size := if size ≤ STATIC_BUFFER_LEN then STATIC_BUFFER_LEN else size
  if size > STATIC_BUFFER_LEN then
    match alloc with
    | none => (some .memory, none)
    | some m => (none, some ⟨m, size, 0, 0, true⟩)
  else (none, some ⟨List.replicate STATIC_BUFFER_LEN 0, size, 0, 0, false⟩)

/-- `GrowBuffer` (src/internal.c:4054-4107). `alloc n` is what `WMALLOC(n)` returns. Result: error
code and buffer; `none` is undefined behaviour. -/
def growBuffer (alloc : Nat → Option Bytes) (b : Buf) (sz : Nat) : Option (Option Err × Buf) :=
  let newSz := sub32 (add32 sz b.length) b.idx
  let used := sub32 b.length b.idx
  if newSz > b.bufferSz then
    match alloc newSz with
    | none => some (some .memory, b)
    | some m =>
      if b.length > 0 then
        match read b.mem b.idx used with
        | none => none
        | some d =>
          match write m 0 d with
          | none => none
          | some m' => some (none, ⟨m', newSz, used, 0, true⟩)
      else some (none, ⟨m, newSz, used, 0, true⟩)
  else if b.length > 0 then
    match read b.mem b.idx used with
    | none => none
    | some d =>
      match write b.mem 0 d with
      | none => none
      | some m' => some (none, { b with mem := m', length := used, idx := 0 })
  else some (none, b)

/-- `ShrinkBuffer` (src/internal.c:4110-4151). `static` is the content of `staticBuffer` while
`buffer` points elsewhere. Moving bytes down inside `staticBuffer` with `WMEMCPY` is undefined
behaviour when the ranges overlap, i.e. when fewer bytes were consumed than remain. -/
def shrinkBuffer (static : Bytes) (b : Buf) (forcedFree : Bool) : Option Buf :=
  let used := sub32 b.length b.idx
  if forcedFree = false ∧ used > STATIC_BUFFER_LEN then some b
  else
    let mem := if b.dyn then static else b.mem
    let m :=
      if forcedFree = false ∧ used ≠ 0 then
        if b.dyn = false ∧ b.idx < used then none
        else
          match read b.mem b.idx used with
          | none => none
          | some d => write mem 0 d
      else if forcedFree then some (List.replicate STATIC_BUFFER_LEN 0)
      else some mem
    m.map (fun m => ⟨m, STATIC_BUFFER_LEN, if forcedFree then 0 else used, 0, false⟩)

/-- `AppendBuffer` (src/internal.c:12003-12040). -/
def appendBuffer (alloc : Nat → Option Bytes) (b : Buf) (data : Bytes) :
    Option (Option Err × Buf) :=
  let used := sub32 b.length b.idx
  if data.length > sub32 4294967295 used then some (some .overflowE, b)
  else
    let need := add32 used data.length
    let growSz :=
      if need > b.bufferSz then
        let target :=
          if b.bufferSz ≤ 2147483647 ∧ add32 b.bufferSz b.bufferSz > need then
            add32 b.bufferSz b.bufferSz
          else need
        sub32 target used
      else data.length
    match growBuffer alloc b growSz with
    | none => none
    | some (some e, b) => some (some e, b)
    | some (none, b) =>
      match write b.mem b.length data with
      | none => none
      | some m => some (none, { b with mem := m, length := add32 b.length data.length })

/-- Taking `n` bytes off the front: `idx += n` (every reader of a buffer). -/
def consume (b : Buf) (n : Nat) : Buf := { b with idx := add32 b.idx n }

end Wolf.Buffer
