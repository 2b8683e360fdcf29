import Verif.Proofs.ChannelInv
/-! Every reader against the grammar, one case split each. -/

namespace Proofs.Reader
open Wolf Wolf.Wire Props.Wire Spec.Wire

variable {mem : Bytes} {len : Nat}

theorem u32 (idx : Nat) (hl : len ≤ mem.length) (hw : len < 2^32) :
    (∃ e i, getUint32 mem len idx = .err e i ∧ uint32 (msgFrom mem len idx) = none) ∨
    (∃ v i, getUint32 mem len idx = .ok v i ∧ v < 2^32 ∧ i ≤ len ∧
      uint32 (msgFrom mem len idx) = some (v, msgFrom mem len i)) := by
  rcases Wolf.Channel.getUint32_cases idx hl hw with ⟨e, i, h1, h2⟩ | ⟨v, h1, hv, hi, h2⟩
  · exact .inl ⟨e, i, h1, h2⟩
  · exact .inr ⟨v, _, h1, hv, hi, h2⟩

theorem bool (idx : Nat) (hl : len ≤ mem.length) (hw : len < 2^32) :
    (∃ e i, getBoolean mem len idx = .err e i ∧ byte (msgFrom mem len idx) = none) ∨
    (∃ v i, getBoolean mem len idx = .ok v i ∧ i ≤ len ∧
      byte (msgFrom mem len idx) = some (v, msgFrom mem len i)) := by
  have h1 := C01_getBoolean mem len idx hl hw
  cases e1 : getBoolean mem len idx with
  | ub => rw [e1] at h1; exact h1.elim
  | err e i => rw [e1] at h1; exact .inl ⟨e, i, rfl, h1.2⟩
  | ok v i => rw [e1] at h1; exact .inr ⟨v, i, rfl, h1.1, h1.2⟩

theorem str (cap idx : Nat) (hc : cap < 2^32) (h0 : 0 < cap) (hl : len ≤ mem.length) (hw : len < 2^32) :
    (∃ e i, getString cap mem len idx = .err e i ∧ string (msgFrom mem len idx) = none) ∨
    (∃ s i, getString cap mem len idx = .ok (s.take (cap - 1) ++ [0]) i ∧ i ≤ len ∧
      string (msgFrom mem len idx) = some (s, msgFrom mem len i)) := by
  have h1 := C01_getString cap mem len idx hl hw hc
  cases e1 : getString cap mem len idx with
  | ub => rw [e1] at h1; exact h1.elim
  | err e i =>
    rw [e1] at h1
    refine .inl ⟨e, i, rfl, ?_⟩
    rcases h1.2 with h | h
    · omega
    · exact h
  | ok v i =>
    rw [e1] at h1
    obtain ⟨_, hi, s, rfl, h⟩ := h1
    exact .inr ⟨s, i, rfl, hi, h⟩

theorem strAlloc (idx : Nat) (hl : len ≤ mem.length) (hw : len < 2^32) :
    (∃ e i, getStringAlloc mem len idx = .err e i ∧ string (msgFrom mem len idx) = none) ∨
    (∃ s i, getStringAlloc mem len idx = .ok s i ∧ i ≤ len ∧
      string (msgFrom mem len idx) = some (s, msgFrom mem len i)) := by
  have h1 := C01_getStringAlloc mem len idx hl hw
  cases e1 : getStringAlloc mem len idx with
  | ub => rw [e1] at h1; exact h1.elim
  | err e i => rw [e1] at h1; exact .inl ⟨e, i, rfl, h1.2⟩
  | ok v i => rw [e1] at h1; exact .inr ⟨v, i, rfl, h1.1, h1.2⟩

end Proofs.Reader
