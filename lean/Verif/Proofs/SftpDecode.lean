import Verif.Proofs.SftpShape
/-! What a client reads in the packets of the server. -/

namespace Proofs.Sftp
open Wolf Wolf.Wire Wolf.Sftp Spec.Wire Spec.Sftp Proofs.Exchange

theorem uint32_enc (n : Nat) (hn : n < 2 ^ 32) (r : Bytes) : uint32 (encUint32 n ++ r) = some (n, r) := by
  unfold uint32
  rw [if_pos (by simp [enc32_length]), List.take_append_of_le_length (by rw [enc32_length]; omega), List.drop_append_of_le_length (by rw [enc32_length]; omega)]
  rw [List.take_of_length_le (by rw [enc32_length]; omega), List.drop_eq_nil_of_le (by rw [enc32_length]; omega), beNat_encUint32 n hn]
  rfl

theorem uint64_enc (n : Nat) (hn : n < 2 ^ 64) (r : Bytes) : uint64 (encUint64 n ++ r) = some (n, r) := by
  rw [uint64_eq, encUint64, List.append_assoc, uint32_enc _ (by omega)]
  simp only [Option.bind_some]
  rw [uint32_enc _ (by omega)]
  simp
  omega

theorem pair_enc (p : Nat × Nat) (h : p.1 < 2 ^ 32 ∧ p.2 < 2 ^ 32) (r : Bytes) : pair (encUint32 p.1 ++ encUint32 p.2 ++ r) = some (p, r) := by
  unfold pair
  rw [List.append_assoc, uint32_enc _ h.1]
  simp only [Option.bind_some]
  rw [uint32_enc _ h.2]
  rfl

theorem field_enc {α : Type} (g : Bytes → Option (α × Bytes)) (f : α → Bytes) (v : Option α) (r : Bytes) (h : ∀ x, v = some x → g (f x ++ r) = some (x, r)) :
    field v.isSome g (encField f v ++ r) = some (v, r) := by
  cases v with
  | none => rfl
  | some x =>
    unfold field encField
    rw [Option.isSome_some, if_pos rfl, h x rfl]
    rfl

theorem flags_lt (a : Attrs) : a.flags < 16 := by
  unfold Attrs.flags
  have h := fun b : Bool => Bool.toNat_le b
  have h1 := h a.size.isSome
  have h2 := h a.owner.isSome
  have h3 := h a.perm.isSome
  have h4 := h a.times.isSome
  omega

theorem flags_bits (a : Attrs) : a.flags.testBit 0 = a.size.isSome ∧ a.flags.testBit 1 = a.owner.isSome ∧ a.flags.testBit 2 = a.perm.isSome ∧
    a.flags.testBit 3 = a.times.isSome ∧ a.flags.testBit 31 = false := by
  unfold Attrs.flags
  cases a.size.isSome <;> cases a.owner.isSome <;> cases a.perm.isSome <;> cases a.times.isSome <;> decide

theorem attrs_enc (a : Attrs) (h : a.Fits) (r : Bytes) : Spec.Sftp.attrs (encAttrs a ++ r) = some (a, r) := by
  obtain ⟨h1, h2, h3, h4⟩ := h
  obtain ⟨b0, b1, b2, b3, b4⟩ := flags_bits a
  unfold Spec.Sftp.attrs encAttrs
  simp only [List.append_assoc]
  rw [uint32_enc _ (Nat.lt_of_lt_of_le (flags_lt a) (by decide))]
  simp only [Option.bind_some, b0, b1, b2, b3, b4]
  rw [field_enc uint64 encUint64 _ _ fun x hx => uint64_enc x (h1 x hx) _]
  simp only [Option.bind_some]
  rw [field_enc pair _ a.owner _ fun x hx => pair_enc x (h2 x hx) _]
  simp only [Option.bind_some]
  rw [field_enc uint32 encUint32 a.perm _ fun x hx => uint32_enc x (h3 x hx) _]
  simp only [Option.bind_some]
  rw [field_enc pair _ a.times _ fun x hx => pair_enc x (h4 x hx) _]
  simp [field, extensions]

theorem names_enc : ∀ (l : List (Bytes × Bytes × Attrs)) (r : Bytes), (∀ n ∈ l, n.1.length < 2 ^ 32 ∧ n.2.1.length < 2 ^ 32 ∧ n.2.2.Fits) →
    names l.length (l.flatMap encName ++ r) = some (l, r)
  | [], _, _ => rfl
  | n :: l, r, h => by
    obtain ⟨h1, h2, h3⟩ := h n (by simp)
    have ih := names_enc l r fun m hm => h m (by simp [hm])
    rw [List.length_cons, names]
    simp only [List.flatMap_cons, encName, List.append_assoc]
    rw [string_enc _ _ h1]
    simp only [Option.bind_some]
    rw [string_enc _ _ h2]
    simp only [Option.bind_some]
    rw [attrs_enc _ h3]
    simp only [Option.bind_some]
    rw [ih]
    rfl

theorem mem_flatMap_le {α : Type} (f : α → Bytes) : ∀ (l : List α) (x : α), x ∈ l → (f x).length ≤ (l.flatMap f).length
  | y :: l, x, h => by
    rw [List.flatMap_cons, List.length_append]
    rcases List.mem_cons.1 h with rfl | h
    · omega
    · have := mem_flatMap_le f l x h; omega

theorem flatMap_len {α : Type} (f : α → Bytes) (hf : ∀ x, 4 ≤ (f x).length) : ∀ (l : List α), 4 * l.length ≤ (l.flatMap f).length
  | [] => by simp
  | y :: l => by
    rw [List.flatMap_cons, List.length_append, List.length_cons]
    have := flatMap_len f hf l
    have := hf y
    omega

theorem decode_packet (id : Nat) (hid : id < 2 ^ 32) (r : Reply) (h : r.Fits) : decode (r.packet id) = some (id, r) := by
  obtain ⟨h1, h2⟩ := h
  unfold decode Reply.packet
  have hl : (r.type :: (encUint32 id ++ r.body)).length < 2 ^ 32 := by
    simp only [List.length_cons, List.length_append, enc32_length]; omega
  have := string_enc (r.type :: (encUint32 id ++ r.body)) [] hl
  rw [List.append_nil] at this
  rw [this]
  simp only [Option.bind_some, byte]
  rw [uint32_enc id hid]
  simp only [Option.bind_some]
  have s1 : ∀ x : Bytes, x.length < 2 ^ 32 → Spec.Wire.string (encString x) = some (x, []) := fun x hx => by
    have := string_enc x [] hx; rwa [List.append_nil] at this
  cases r with
  | status c m l =>
    simp only [Reply.body, List.length_append, enc_length] at h1
    simp only [Reply.type, Reply.body, List.append_assoc]
    rw [if_pos trivial, uint32_enc c h2]
    simp only [Option.bind_some]
    rw [string_enc _ _ (by omega)]
    simp only [Option.bind_some]
    rw [s1 _ (by omega)]
    rfl
  | handle x =>
    simp only [Reply.body, enc_length] at h1
    simp only [Reply.type, Reply.body]
    rw [if_neg (by decide), if_pos trivial, s1 _ (by omega)]
    rfl
  | data x =>
    simp only [Reply.body, enc_length] at h1
    simp only [Reply.type, Reply.body]
    rw [if_neg (by decide), if_neg (by decide), if_pos trivial, s1 _ (by omega)]
    rfl
  | names l =>
    simp only [Reply.body, List.length_append, enc32_length] at h1
    simp only [Reply.type, Reply.body]
    have hlen : 4 * l.length ≤ (l.flatMap encName).length := flatMap_len encName (fun x => by simp [encName, enc_length]; omega) l
    rw [if_neg (by decide), if_neg (by decide), if_neg (by decide), if_pos trivial, uint32_enc _ (by omega)]
    simp only [Option.bind_some]
    have := names_enc l [] (fun n hn => by
      have := mem_flatMap_le encName l n hn
      simp only [encName, List.length_append, enc_length] at this
      exact ⟨by omega, by omega, h2 n hn⟩)
    rw [List.append_nil] at this
    rw [this]
    rfl
  | attrs a =>
    simp only [Reply.type, Reply.body]
    have := attrs_enc a h2 []
    rw [List.append_nil] at this
    rw [if_neg (by decide), if_neg (by decide), if_neg (by decide), if_neg (by decide), if_pos trivial, this]
    rfl

end Proofs.Sftp
