import Verif.Spec.Packet
/-!
# A toy implementation of the cryptographic primitives, for concrete cases
-/

namespace Props.Packet
open Wolf Wolf.Packet Spec.Packet

/-- A byte stream mask that depends on the position. -/
def mask : Nat → Bytes → Bytes
  | _, [] => []
  | n, b :: bs => (b ^^^ UInt8.ofNat (n + 90)) :: mask (n + 1) bs

/-- A checksum. -/
def checksum (bs : Bytes) : UInt8 := bs.foldl (fun a b => a * 3 + b + 1) 0

/-- Mask and checksum in the place of ciphers and MACs; the state counts the bytes. -/
@[reducible] def toy : Prims where
  State := Nat
  setKey := fun _ _ _ _ => some 0
  enc := fun _ n x => some (mask n x, n + x.length)
  dec := fun _ n x => some (mask n x, n + x.length)
  hmac := fun _ k x => some (List.replicate 64 (checksum (k ++ x)))
  gcmSeal := fun _ _ iv x aad n => some (mask 0 x, List.replicate n (checksum (iv ++ aad ++ mask 0 x)))
  gcmOpen := fun _ _ iv x tag aad =>
    if tag = List.replicate tag.length (checksum (iv ++ aad ++ x)) then some (mask 0 x) else none

theorem mask_length (n : Nat) (x : Bytes) : (mask n x).length = x.length := by
  induction x generalizing n with
  | nil => rfl
  | cons b x ih => simp [mask, ih]

theorem mask_mask (n : Nat) (x : Bytes) : mask n (mask n x) = x := by
  induction x generalizing n with
  | nil => rfl
  | cons b x ih => simp [mask, ih, UInt8.xor_assoc]

theorem mask_append (n : Nat) (x y : Bytes) : mask n (x ++ y) = mask n x ++ mask (n + x.length) y := by
  induction x generalizing n with
  | nil => rfl
  | cons b x ih => simp [mask, ih]; congr 1; omega

theorem toy_sizes : Sizes toy where
  enc := by intro id st x y st' h; injection h with h; injection h with h _; rw [← h]; exact mask_length st x
  dec := by intro id st x y st' h; injection h with h; injection h with h _; rw [← h]; exact mask_length st x
  hmac := by intro m k x d h; simp at h; rw [← h]; cases m <;> simp [macSzForId]
  gcmSeal := by
    intro id st iv x aad n ct tag h; simp at h
    rw [← h.1, ← h.2, mask_length]; simp
  gcmOpen := by
    intro id st iv x tag aad y h; simp at h
    rw [← h.2, mask_length]

end Props.Packet
