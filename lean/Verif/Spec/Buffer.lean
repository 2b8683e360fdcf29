import Verif.Model.Buffer
/-!
# What a byte buffer is: a queue of unread bytes inside an allocation
-/

namespace Spec.Buffer
open Wolf Wolf.Buffer

/-- Cursor within length, length within the allocation, sizes as the C sees them. -/
structure Ok (b : Buf) : Prop where
  cursor : b.idx ≤ b.length
  fits : b.length ≤ b.bufferSz
  mem : b.mem.length = b.bufferSz
  size : b.bufferSz < 2^32
  static : b.dyn = false → b.bufferSz = 16

/-- The bytes put in and not yet taken out. -/
def unread (b : Buf) : Bytes := (b.mem.drop b.idx).take (b.length - b.idx)

/-- A memory allocator: what it returns has the size asked for. -/
def Allocator (alloc : Nat → Option Bytes) : Prop := ∀ n m, alloc n = some m → m.length = n

end Spec.Buffer
