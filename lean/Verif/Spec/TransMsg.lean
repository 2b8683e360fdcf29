import Verif.Model.TransMsg
import Verif.Spec.Wire
/-!
# Specification: RFC 4253, section 11

The messages without their number. Of the model only the events are used.
-/

namespace Spec.TransMsg
open Spec.Wire (encString encUint32)
open Wolf.TransMsg (HeapEv Slot)

/-- SSH_MSG_DISCONNECT: reason, description, language. -/
def disconnectMsg (reason : Nat) (text lang : List UInt8) : List UInt8 := encUint32 reason ++ (encString text ++ encString lang)

/-- SSH_MSG_IGNORE: data. -/
def ignoreMsg (data : List UInt8) : List UInt8 := encString data

/-- SSH_MSG_UNIMPLEMENTED: the number of the packet that was not understood. -/
def unimplementedMsg (seq : Nat) : List UInt8 := encUint32 seq

/-- SSH_MSG_DEBUG: whether to show it, text, language. -/
def debugMsg (flag : UInt8) (text lang : List UInt8) : List UInt8 := flag :: (encString text ++ encString lang)

/-- The number of times the memory of `s` was given, and given back. -/
def given (s : Slot) (ev : List HeapEv) : Nat := ev.countP (fun | .alloc t _ => t == s | _ => false)
def back (s : Slot) (ev : List HeapEv) : Nat := ev.countP (fun | .free t => t == s | _ => false)

/-- All memory given is given back, once, and not before. -/
def Balanced (ev : List HeapEv) : Prop :=
  ∀ s, given s ev = back s ev ∧ given s ev ≤ 1 ∧ ∀ n, back s (ev.take n) ≤ given s (ev.take n)

end Spec.TransMsg
