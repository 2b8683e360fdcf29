import Verif.Spec.Exchange
import Verif.Proofs.PkAuth
import Verif.Props.Kdf
import Verif.Props.Gex
/-! The readers of the key exchange messages against the grammar. -/

namespace Proofs.Exchange
open Wolf Wolf.Wire Wolf.KexDh Spec.Wire Spec.Exchange Props.Wire

theorem enc_length (s : Bytes) : (encString s).length = s.length + 4 := by
  simp [encString, encUint32]

theorem msgFrom_length (mem : Bytes) (len idx : Nat) (hl : len ≤ mem.length) : (msgFrom mem len idx).length = len - idx := by
  simp [msgFrom, List.length_drop, List.length_take]; omega

theorem string_enc (s rest : Bytes) (hs : s.length < 4294967296) : Spec.Wire.string (encString s ++ rest) = some (s, rest) := by
  have := Wolf.Kex.string_fld s hs rest
  rwa [Wolf.UserAuth.fld_eq] at this

theorem encString_eq (s : Bytes) : encString s = c32toa s.length ++ s := by
  rw [c32toa_eq]; rfl

/-- Reading a string: found and consumed, or the message does not start with one. -/
theorem str_ref (mem : Bytes) (len idx : Nat) (hl : len ≤ mem.length) (hw : len < 2 ^ 32) :
    (∃ r s, getStringRef mem len idx = .ok r (idx + 4 + s.length) ∧ deref mem r = some s ∧ (r.off = none ↔ s = []) ∧
      r.sz = s.length ∧ msgFrom mem len idx = encString s ++ msgFrom mem len (idx + 4 + s.length) ∧ idx + 4 + s.length ≤ len ∧
      s.length < 2 ^ 32) ∨
    (∃ i, getStringRef mem len idx = .err .bufferE i ∧ Spec.Wire.string (msgFrom mem len idx) = none) := by
  have hc := C01_getStringRef mem len idx hl hw
  have he := getStringRef_eq mem len idx hl hw
  cases h : Spec.Wire.string (msgFrom mem len idx) with
  | none =>
    right
    rw [show (mem.take len).drop idx = msgFrom mem len idx from rfl, h] at he
    simp only at he
    split at he
    · exact ⟨_, he, rfl⟩
    · exact ⟨_, he, rfl⟩
  | some p =>
    obtain ⟨s, rest⟩ := p
    left
    rw [show (mem.take len).drop idx = msgFrom mem len idx from rfl, h] at he
    simp only at he
    rw [he] at hc
    obtain ⟨h1, s', h2, h3, h4⟩ := hc
    rw [h] at h4
    simp only [Option.some.injEq, Prod.mk.injEq] at h4
    obtain ⟨rfl, h5⟩ := h4
    refine ⟨_, s, he, h2, ?_, ?_, ?_, h1, by omega⟩
    · split <;> simp_all
    · split <;> simp_all
    · rw [← h5]; exact Wolf.UserAuth.string_inv h

theorem read_enc (mem : Bytes) (len idx : Nat) (s : Bytes) (hl : len ≤ mem.length) (hs : idx + 4 + s.length ≤ len)
    (h : msgFrom mem len idx = encString s ++ msgFrom mem len (idx + 4 + s.length)) :
    Buffer.read mem idx (4 + s.length) = some (encString s) ∧ Buffer.read mem (idx + 4) s.length = some s := by
  have e1 : (mem.drop idx).take (4 + s.length) = encString s := by
    have h2 : ((mem.take len).drop idx).take (4 + s.length) = encString s := by
      rw [show (mem.take len).drop idx = msgFrom mem len idx from rfl, h, List.take_append_of_le_length (by rw [enc_length]; omega),
        List.take_of_length_le (by rw [enc_length]; omega)]
    rw [← h2, List.drop_take, List.take_take, Nat.min_eq_left (by omega)]
  constructor
  · unfold Buffer.read
    rw [if_pos (by omega), e1]
  · unfold Buffer.read
    rw [if_pos (by omega)]
    have h3 : ((mem.drop idx).take (4 + s.length)).drop 4 = s := by
      rw [e1]; rfl
    rw [List.drop_take, List.drop_drop, show 4 + s.length - 4 = s.length by omega] at h3
    rw [h3]

theorem field_spec (mem : Bytes) (len idx : Nat) (hl : len ≤ mem.length) (hw : len < 2 ^ 32) :
    (∃ s, replyField mem len idx = some (.ok (encString s, s, idx + 4 + s.length)) ∧
      msgFrom mem len idx = encString s ++ msgFrom mem len (idx + 4 + s.length) ∧ idx + 4 + s.length ≤ len) ∨
    (∃ e, replyField mem len idx = some (.error e) ∧ Spec.Wire.string (msgFrom mem len idx) = none) := by
  have hu := C01_getUint32 mem len idx hl hw
  unfold replyField rd
  cases h : getUint32 mem len idx with
  | ub => rw [h] at hu; exact hu.elim
  | err e i =>
    rw [h] at hu
    right
    refine ⟨_, rfl, ?_⟩
    unfold Spec.Wire.string
    rw [hu.2]
  | ok v i =>
    rw [h] at hu
    obtain ⟨h1, h2, h3⟩ := hu
    dsimp only
    have hlen := msgFrom_length mem len i hl
    have hsub : sub32 len i = len - i := by unfold sub32; omega
    rw [hsub]
    by_cases hv : v > len - i
    · rw [if_pos hv]
      right
      refine ⟨_, rfl, ?_⟩
      unfold Spec.Wire.string
      rw [h3]
      dsimp only
      rw [if_neg (by omega)]
    · rw [if_neg hv]
      left
      have hst : Spec.Wire.string (msgFrom mem len idx) = some ((msgFrom mem len i).take v, (msgFrom mem len i).drop v) := by
        unfold Spec.Wire.string
        rw [h3]
        dsimp only
        rw [if_pos (by omega)]
      have hinv := Wolf.UserAuth.string_inv hst
      have hsl : ((msgFrom mem len i).take v).length = v := by rw [List.length_take]; omega
      have hd : (msgFrom mem len i).drop v = msgFrom mem len (i + v) := by
        unfold msgFrom; rw [List.drop_drop]
      rw [hd] at hinv
      generalize hs : (msgFrom mem len i).take v = s at hinv hsl
      have hinv' : msgFrom mem len idx = encString s ++ msgFrom mem len (idx + 4 + s.length) := by
        rw [hinv, hsl, h2]
      obtain ⟨r1, r2⟩ := read_enc mem len idx s hl (by omega) hinv'
      refine ⟨s, ?_, hinv', by omega⟩
      have ha : add32 v 4 = 4 + s.length := by unfold add32; omega
      have hb : add32 i v = idx + 4 + s.length := by unfold add32; omega
      rw [ha, hb, h2, ← hsl, r1, r2]

theorem key_spec (mem : Bytes) (len idx : Nat) (hl : len ≤ mem.length) (hw : len < 2 ^ 32) (hi : idx + 8 < 2 ^ 32) :
    (∃ s, replyKey mem len idx = some (.ok (encString s, s, idx + 4 + s.length)) ∧
      msgFrom mem len idx = encString s ++ msgFrom mem len (idx + 4 + s.length) ∧ idx + 4 + s.length + 4 ≤ len) ∨
    (∃ e, replyKey mem len idx = some (.error e) ∧
      ∀ s rest, msgFrom mem len idx = encString s ++ rest → s.length < 2 ^ 32 → rest.length < 4) := by
  unfold replyKey
  have ha8 : add32 8 idx = 8 + idx := by unfold add32; omega
  rw [ha8]
  by_cases h8 : len < 8 + idx
  · rw [if_pos h8]
    right
    refine ⟨_, rfl, fun s rest h hs => ?_⟩
    have := congrArg List.length h
    rw [msgFrom_length _ _ _ hl, List.length_append, enc_length] at this
    omega
  · rw [if_neg h8]
    have hu := C01_getUint32 mem len idx hl hw
    unfold rd
    cases h : getUint32 mem len idx with
    | ub => rw [h] at hu; exact hu.elim
    | err e i =>
      rw [h] at hu
      right
      refine ⟨_, rfl, fun s rest h hs => ?_⟩
      have h5 := string_enc s rest (by omega)
      rw [← h] at h5
      unfold Spec.Wire.string at h5
      rw [hu.2] at h5
      cases h5
    | ok v i =>
      rw [h] at hu
      obtain ⟨h1, h2, h3⟩ := hu
      dsimp only
      have hlen := msgFrom_length mem len i hl
      have hsub : sub32 (sub32 len 4) i = len - 4 - i := by unfold sub32; omega
      rw [hsub]
      by_cases hv : v > len - 4 - i
      · rw [if_pos hv]
        right
        refine ⟨_, rfl, fun s rest h hs => ?_⟩
        have h5 := string_enc s rest (by omega)
        rw [← h] at h5
        unfold Spec.Wire.string at h5
        rw [h3] at h5
        dsimp only at h5
        split at h5
        · simp only [Option.some.injEq, Prod.mk.injEq] at h5
          rw [← h5.2, List.length_drop]
          omega
        · cases h5
      · rw [if_neg hv]
        left
        have hst : Spec.Wire.string (msgFrom mem len idx) = some ((msgFrom mem len i).take v, (msgFrom mem len i).drop v) := by
          unfold Spec.Wire.string
          rw [h3]
          dsimp only
          rw [if_pos (by omega)]
        have hinv := Wolf.UserAuth.string_inv hst
        have hsl : ((msgFrom mem len i).take v).length = v := by rw [List.length_take]; omega
        have hd : (msgFrom mem len i).drop v = msgFrom mem len (i + v) := by
          unfold msgFrom; rw [List.drop_drop]
        rw [hd] at hinv
        generalize hs : (msgFrom mem len i).take v = s at hinv hsl
        have hinv' : msgFrom mem len idx = encString s ++ msgFrom mem len (idx + 4 + s.length) := by
          rw [hinv, hsl, h2]
        obtain ⟨r1, r2⟩ := read_enc mem len idx s hl (by omega) hinv'
        refine ⟨s, ?_, hinv', by omega⟩
        have ha : add32 v 4 = 4 + s.length := by unfold add32; omega
        have hb : add32 i v = idx + 4 + s.length := by unfold add32; omega
        have hc : i - 4 = idx := by omega
        rw [ha, hb, hc, h2, ← hsl, r1, r2]

/-- `GetSkip` moves over one string. -/
theorem skip_spec (mem : Bytes) (len idx : Nat) (hl : len ≤ mem.length) (hw : len < 2 ^ 32) :
    (∃ s, getSkip mem len idx = .ok () (idx + 4 + s.length) ∧
      msgFrom mem len idx = encString s ++ msgFrom mem len (idx + 4 + s.length) ∧ idx + 4 + s.length ≤ len) ∨
    (∃ e i, getSkip mem len idx = .err e i ∧ Spec.Wire.string (msgFrom mem len idx) = none) := by
  have hs := C01_getSkip mem len idx hl hw
  cases h : getSkip mem len idx with
  | ub => rw [h] at hs; exact hs.elim
  | err e i => rw [h] at hs; exact .inr ⟨e, i, rfl, hs.2⟩
  | ok u i =>
    rw [h] at hs
    obtain ⟨h1, s, h2⟩ := hs
    have hinv := Wolf.UserAuth.string_inv h2
    have hlen := congrArg List.length hinv
    rw [msgFrom_length _ _ _ hl, List.length_append, enc_length, msgFrom_length _ _ _ hl] at hlen
    left
    by_cases hidx : idx ≤ len
    · have : i = idx + 4 + s.length := by omega
      rw [this] at hinv
      exact ⟨s, by rw [this], hinv, by omega⟩
    · omega


theorem enc_len_bound {mem : Bytes} {len idx : Nat} {s rest : Bytes} (hl : len ≤ mem.length)
    (h : msgFrom mem len idx = encString s ++ rest) : s.length + 4 + rest.length = len - idx := by
  have := congrArg List.length h
  rw [msgFrom_length _ _ _ hl, List.length_append, enc_length] at this
  omega

theorem str_ref_at {mem : Bytes} {len idx : Nat} {s rest : Bytes} (hl : len ≤ mem.length) (hw : len < 2 ^ 32)
    (h : msgFrom mem len idx = encString s ++ rest) :
    ∃ r, getStringRef mem len idx = .ok r (idx + 4 + s.length) ∧ deref mem r = some s ∧ (r.off = none ↔ s = []) ∧
      r.sz = s.length ∧ msgFrom mem len (idx + 4 + s.length) = rest := by
  have hb := enc_len_bound hl h
  rcases str_ref mem len idx hl hw with ⟨r, s', h1, h2, h3, h4, h5, h6, h7⟩ | ⟨i, h1, h2⟩
  · rw [h5] at h
    obtain ⟨rfl, h'⟩ := Wolf.UserAuth.encString_inj (by omega) (by omega) h
    exact ⟨r, h1, h2, h3, h4, h'⟩
  · rw [h, string_enc s rest (by omega)] at h2; cases h2

theorem skip_at {mem : Bytes} {len idx : Nat} {s rest : Bytes} (hl : len ≤ mem.length) (hw : len < 2 ^ 32)
    (h : msgFrom mem len idx = encString s ++ rest) :
    getSkip mem len idx = .ok () (idx + 4 + s.length) ∧ msgFrom mem len (idx + 4 + s.length) = rest := by
  have hb := enc_len_bound hl h
  rcases skip_spec mem len idx hl hw with ⟨s', h1, h5, h6⟩ | ⟨e, i, h1, h2⟩
  · rw [h5] at h
    obtain ⟨rfl, h'⟩ := Wolf.UserAuth.encString_inj (by omega) (by omega) h
    exact ⟨h1, h'⟩
  · rw [h, string_enc s rest (by omega)] at h2; cases h2

theorem field_at {mem : Bytes} {len idx : Nat} {s rest : Bytes} (hl : len ≤ mem.length) (hw : len < 2 ^ 32)
    (h : msgFrom mem len idx = encString s ++ rest) :
    replyField mem len idx = some (.ok (encString s, s, idx + 4 + s.length)) ∧ msgFrom mem len (idx + 4 + s.length) = rest := by
  have hb := enc_len_bound hl h
  rcases field_spec mem len idx hl hw with ⟨s', h1, h5, h6⟩ | ⟨e, h1, h2⟩
  · rw [h5] at h
    obtain ⟨rfl, h'⟩ := Wolf.UserAuth.encString_inj (by omega) (by omega) h
    exact ⟨h1, h'⟩
  · rw [h, string_enc s rest (by omega)] at h2; cases h2

theorem key_at {mem : Bytes} {len idx : Nat} {s rest : Bytes} (hl : len ≤ mem.length) (hw : len < 2 ^ 32) (hi : idx + 8 < 2 ^ 32)
    (h : msgFrom mem len idx = encString s ++ rest) (hr : 4 ≤ rest.length) :
    replyKey mem len idx = some (.ok (encString s, s, idx + 4 + s.length)) ∧ msgFrom mem len (idx + 4 + s.length) = rest := by
  have hb := enc_len_bound hl h
  rcases key_spec mem len idx hl hw hi with ⟨s', h1, h5, h6⟩ | ⟨e, h1, h2⟩
  · rw [h5] at h
    obtain ⟨rfl, h'⟩ := Wolf.UserAuth.encString_inj (by omega) (by omega) h
    exact ⟨h1, h'⟩
  · have := h2 s rest h (by omega); omega

theorem msgFrom_all (m : Bytes) : msgFrom m m.length 0 = m := by simp [msgFrom]

/-- One of the two number fields of an RSA key is `replyField` with another error. -/
theorem rsa_field {β : Type} (mem : Bytes) (idx : Nat) (hw : mem.length < 2 ^ 32) (k : Nat → Nat → Option (Except Err β)) :
    (∃ s, (rd (getUint32 mem mem.length idx) fun sz i => if sz > sub32 mem.length i then some (.error .rsaE) else k sz i) =
        k s.length (idx + 4) ∧ Buffer.read mem (idx + 4) s.length = some s ∧ add32 (idx + 4) s.length = idx + 4 + s.length ∧
      msgFrom mem mem.length idx = encString s ++ msgFrom mem mem.length (idx + 4 + s.length)) ∨
    (∃ e, (rd (getUint32 mem mem.length idx) fun sz i => if sz > sub32 mem.length i then some (.error .rsaE) else k sz i) =
        some (.error e) ∧ Spec.Wire.string (msgFrom mem mem.length idx) = none) := by
  have hl : mem.length ≤ mem.length := Nat.le_refl _
  have hu := C01_getUint32 mem mem.length idx hl hw
  unfold rd
  cases h : getUint32 mem mem.length idx with
  | ub => rw [h] at hu; exact hu.elim
  | err e i =>
    rw [h] at hu
    right
    refine ⟨_, rfl, ?_⟩
    unfold Spec.Wire.string
    rw [hu.2]
  | ok v i =>
    rw [h] at hu
    obtain ⟨h1, h2, h3⟩ := hu
    dsimp only
    have hlen := msgFrom_length mem mem.length i hl
    have hsub : sub32 mem.length i = mem.length - i := by unfold sub32; omega
    rw [hsub]
    by_cases hv : v > mem.length - i
    · rw [if_pos hv]
      right
      refine ⟨_, rfl, ?_⟩
      unfold Spec.Wire.string
      rw [h3]
      dsimp only
      rw [if_neg (by omega)]
    · rw [if_neg hv]
      left
      have hst : Spec.Wire.string (msgFrom mem mem.length idx) =
          some ((msgFrom mem mem.length i).take v, (msgFrom mem mem.length i).drop v) := by
        unfold Spec.Wire.string
        rw [h3]
        dsimp only
        rw [if_pos (by omega)]
      have hinv := Wolf.UserAuth.string_inv hst
      have hsl : ((msgFrom mem mem.length i).take v).length = v := by rw [List.length_take]; omega
      have hd : (msgFrom mem mem.length i).drop v = msgFrom mem mem.length (i + v) := by
        unfold msgFrom; rw [List.drop_drop]
      rw [hd] at hinv
      generalize hs : (msgFrom mem mem.length i).take v = s at hinv hsl
      have hinv' : msgFrom mem mem.length idx = encString s ++ msgFrom mem mem.length (idx + 4 + s.length) := by
        rw [hinv, hsl, h2]
      obtain ⟨r1, r2⟩ := read_enc mem mem.length idx s hl (by omega) hinv'
      refine ⟨s, by rw [hsl, h2], r2, by unfold add32; omega, hinv'⟩

theorem parseRsa_spec (blob : Bytes) (hw : blob.length < 2 ^ 32) :
    (∃ name e n rest, parseRsa blob = some (.ok (.rsa e n)) ∧ blob = encString name ++ encString e ++ encString n ++ rest) ∨
    (∃ er, parseRsa blob = some (.error er) ∧ ∀ name e n rest, blob ≠ encString name ++ encString e ++ encString n ++ rest) := by
  unfold parseRsa
  have h0 := msgFrom_all blob
  have hlen : ∀ name r, blob = encString name ++ r → name.length < 4294967296 := by
    intro name r h
    have := congrArg List.length h
    rw [List.length_append, enc_length] at this; omega
  rcases skip_spec blob blob.length 0 (Nat.le_refl _) hw with ⟨nm, g1, g2, g3⟩ | ⟨e, i, g1, g2⟩
  · rw [g1, rd]
    rw [h0] at g2
    rcases rsa_field blob (0 + 4 + nm.length) hw (fun eSz i => rd (getUint32 blob blob.length (add32 i eSz)) fun nSz j =>
      if nSz > sub32 blob.length j then some (.error .rsaE)
      else rsaKey (Buffer.read blob i eSz) (Buffer.read blob j nSz)) with ⟨e, k1, k2, k3, k4⟩ | ⟨er, k1, k2⟩
    · rw [k1, k3]
      rcases rsa_field blob (0 + 4 + nm.length + 4 + e.length) hw (fun nSz j => rsaKey (Buffer.read blob (0 + 4 + nm.length + 4) e.length) (Buffer.read blob j nSz)) with ⟨n, m1, m2, m3, m4⟩ | ⟨er, m1, m2⟩
      · rw [m1, k2, m2]
        left
        exact ⟨nm, e, n, msgFrom blob blob.length (0 + 4 + nm.length + 4 + e.length + 4 + n.length), rfl, by rw [List.append_assoc, List.append_assoc, ← m4, ← k4, ← g2]⟩
      · rw [m1]
        right
        refine ⟨er, rfl, fun name e' n' rest h => ?_⟩
        have h2 := h
        rw [List.append_assoc, List.append_assoc] at h2
        have hb := hlen _ _ h2
        rw [g2] at h2
        obtain ⟨rfl, h3⟩ := Wolf.UserAuth.encString_inj (by omega) hb h2
        have hl2 := enc_len_bound (Nat.le_refl _) h3
        rw [k4] at h3
        obtain ⟨rfl, h4⟩ := Wolf.UserAuth.encString_inj (by have := enc_len_bound (Nat.le_refl _) k4; omega) (by omega) h3
        have hl3 := enc_len_bound (Nat.le_refl _) h4
        rw [h4, string_enc _ _ (by omega)] at m2
        cases m2
    · rw [k1]
      right
      refine ⟨er, rfl, fun name e' n' rest h => ?_⟩
      have h2 := h
      rw [List.append_assoc, List.append_assoc] at h2
      have hb := hlen _ _ h2
      rw [g2] at h2
      obtain ⟨rfl, h3⟩ := Wolf.UserAuth.encString_inj (by omega) hb h2
      have hl2 := enc_len_bound (Nat.le_refl _) h3
      rw [h3, string_enc _ _ (by omega)] at k2
      cases k2
  · rw [g1, rd]
    right
    refine ⟨e, rfl, fun name e' n' rest h => ?_⟩
    rw [h0, h, List.append_assoc, List.append_assoc, string_enc _ _ (hlen name (encString e' ++ (encString n' ++ rest)) (by rw [h]; simp only [List.append_assoc]))] at g2
    cases g2

theorem parseEcc_sound (a : HostAlg) (blob : Bytes) (hw : blob.length < 2 ^ 32) :
    (∃ q rest, parseEcc a blob = some (.ok (.ecc q)) ∧ blob = encString a.name ++ encString a.curve ++ encString q ++ rest) ∨
    (∃ er, parseEcc a blob = some (.error er)) := by
  unfold parseEcc
  rcases str_ref blob blob.length 0 (Nat.le_refl _) hw with ⟨r, nm, g1, g2, g3, g4, g5, g6, g7⟩ | ⟨i, g1, g2⟩
  · rw [g1, rd, use, g2]
    dsimp only
    by_cases hn : r.off = none ∨ nm ≠ a.name
    · rw [if_pos hn]; exact .inr ⟨_, rfl⟩
    · rw [if_neg hn]
      rcases str_ref blob blob.length (0 + 4 + nm.length) (Nat.le_refl _) hw with ⟨r', cv, k1, k2, k3, k4, k5, k6, k7⟩ | ⟨i, k1, k2⟩
      · rw [k1, rd, use, k2]
        dsimp only
        by_cases hc : cv ≠ a.curve
        · rw [if_pos hc]; exact .inr ⟨_, rfl⟩
        · rw [if_neg hc]
          rcases str_ref blob blob.length (0 + 4 + nm.length + 4 + cv.length) (Nat.le_refl _) hw with ⟨r'', q, m1, m2, m3, m4, m5, m6, m7⟩ | ⟨i, m1, m2⟩
          · rw [m1, rd, use, m2]
            left
            refine ⟨q, msgFrom blob blob.length (0 + 4 + nm.length + 4 + cv.length + 4 + q.length), rfl, ?_⟩
            simp only [not_or, ne_eq, Decidable.not_not] at hn hc
            rw [← hn.2, ← hc, List.append_assoc, List.append_assoc, ← m5, ← k5, ← g5, msgFrom_all]
          · rw [m1, rd]; exact .inr ⟨_, rfl⟩
      · rw [k1, rd]; exact .inr ⟨_, rfl⟩
  · rw [g1, rd]; exact .inr ⟨_, rfl⟩

theorem parseEcc_complete (a : HostAlg) (blob q rest : Bytes) (hw : blob.length < 2 ^ 32) (hn : a.name ≠ [])
    (h : blob = encString a.name ++ encString a.curve ++ encString q ++ rest) : parseEcc a blob = some (.ok (.ecc q)) := by
  unfold parseEcc
  have h0 : msgFrom blob blob.length 0 = encString a.name ++ (encString a.curve ++ (encString q ++ rest)) := by
    rw [msgFrom_all]; simp only [h, List.append_assoc]
  obtain ⟨r, g1, g2, g3, g4, g5⟩ := str_ref_at (Nat.le_refl _) hw h0
  rw [g1, rd, use, g2]
  dsimp only
  rw [if_neg (by simp [g3, hn])]
  obtain ⟨r', k1, k2, k3, k4, k5⟩ := str_ref_at (Nat.le_refl _) hw g5
  rw [k1, rd, use, k2]
  dsimp only
  rw [if_neg (by simp)]
  obtain ⟨r', m1, m2, m3, m4, m5⟩ := str_ref_at (Nat.le_refl _) hw k5
  rw [m1, rd, use, m2]

theorem parseRaw_sound (a : HostAlg) (named : Bool) (blob : Bytes) (hw : blob.length < 2 ^ 32) :
    (∃ name q rest, parseRaw a named blob = some (.ok (.raw q)) ∧ (named = true → name = a.name) ∧
      blob = encString name ++ encString q ++ rest) ∨
    (∃ er, parseRaw a named blob = some (.error er)) := by
  unfold parseRaw
  cases named with
  | true =>
    rw [if_pos rfl]
    rcases str_ref blob blob.length 0 (Nat.le_refl _) hw with ⟨r, nm, g1, g2, g3, g4, g5, g6, g7⟩ | ⟨i, g1, g2⟩
    · rw [g1, rd, use, g2]
      dsimp only
      by_cases hn : r.off = none ∨ nm ≠ a.name
      · rw [if_pos hn]; exact .inr ⟨_, rfl⟩
      · rw [if_neg hn]
        rcases str_ref blob blob.length (0 + 4 + nm.length) (Nat.le_refl _) hw with ⟨r', q, k1, k2, k3, k4, k5, k6, k7⟩ | ⟨i, k1, k2⟩
        · rw [k1, rd, use, k2]
          left
          simp only [not_or, ne_eq, Decidable.not_not] at hn
          exact ⟨nm, q, msgFrom blob blob.length (0 + 4 + nm.length + 4 + q.length), rfl, fun _ => hn.2, by rw [List.append_assoc, ← k5, ← g5, msgFrom_all]⟩
        · rw [k1, rd]; exact .inr ⟨_, rfl⟩
    · rw [g1, rd]; exact .inr ⟨_, rfl⟩
  | false =>
    rw [if_neg (by simp)]
    rcases skip_spec blob blob.length 0 (Nat.le_refl _) hw with ⟨nm, g1, g2, g3⟩ | ⟨e, i, g1, g2⟩
    · rw [g1, rd]
      rcases str_ref blob blob.length (0 + 4 + nm.length) (Nat.le_refl _) hw with ⟨r', q, k1, k2, k3, k4, k5, k6, k7⟩ | ⟨i, k1, k2⟩
      · rw [k1, rd, use, k2]
        left
        exact ⟨nm, q, msgFrom blob blob.length (0 + 4 + nm.length + 4 + q.length), rfl, by simp, by rw [List.append_assoc, ← k5, ← g2, msgFrom_all]⟩
      · rw [k1, rd]; exact .inr ⟨_, rfl⟩
    · rw [g1, rd]; exact .inr ⟨_, rfl⟩

theorem parseRaw_complete (a : HostAlg) (named : Bool) (blob name q rest : Bytes) (hw : blob.length < 2 ^ 32) (hn : a.name ≠ [])
    (hnm : named = true → name = a.name) (h : blob = encString name ++ encString q ++ rest) :
    parseRaw a named blob = some (.ok (.raw q)) := by
  unfold parseRaw
  have h0 : msgFrom blob blob.length 0 = encString name ++ (encString q ++ rest) := by
    rw [msgFrom_all]; simp only [h, List.append_assoc]
  cases named with
  | true =>
    rw [if_pos rfl]
    obtain ⟨r, g1, g2, g3, g4, g5⟩ := str_ref_at (Nat.le_refl _) hw h0
    rw [g1, rd, use, g2]
    dsimp only
    rw [if_neg (by rw [g3, hnm rfl]; simp [hn])]
    obtain ⟨r', k1, k2, k3, k4, k5⟩ := str_ref_at (Nat.le_refl _) hw g5
    rw [k1, rd, use, k2]
  | false =>
    rw [if_neg (by simp)]
    obtain ⟨g1, g2⟩ := skip_at (Nat.le_refl _) hw h0
    rw [g1, rd]
    obtain ⟨r', k1, k2, k3, k4, k5⟩ := str_ref_at (Nat.le_refl _) hw g2
    rw [k1, rd, use, k2]

theorem parse_sound (a : HostAlg) (blob : Bytes) (hw : blob.length < 2 ^ 32) :
    (∃ pk, parsePubKey a blob = some (.ok pk) ∧ KeyBlob a blob pk) ∨ (∃ er, parsePubKey a blob = some (.error er)) := by
  unfold parsePubKey
  cases hf : a.family with
  | rsa =>
    rcases parseRsa_spec blob hw with ⟨nm, e, n, r, h1, h2⟩ | ⟨er, h1, _⟩
    · exact .inl ⟨_, h1, hf, nm, r, h2⟩
    · exact .inr ⟨_, h1⟩
  | ecc =>
    rcases parseEcc_sound a blob hw with ⟨q, r, h1, h2⟩ | ⟨er, h1⟩
    · exact .inl ⟨_, h1, hf, r, h2⟩
    · exact .inr ⟨_, h1⟩
  | raw named =>
    rcases parseRaw_sound a named blob hw with ⟨nm, q, r, h1, h2, h3⟩ | ⟨er, h1⟩
    · exact .inl ⟨_, h1, named, nm, r, hf, h2, h3⟩
    · exact .inr ⟨_, h1⟩

theorem parse_complete (a : HostAlg) (blob : Bytes) (pk : PubKey) (hw : blob.length < 2 ^ 32) (hn : a.name ≠ [])
    (h : KeyBlob a blob pk) : parsePubKey a blob = some (.ok pk) := by
  unfold parsePubKey
  cases pk with
  | rsa e n =>
    obtain ⟨hf, nm, r, h⟩ := h
    rw [hf]
    dsimp only
    rcases parseRsa_spec blob hw with ⟨nm', e', n', r', h1, h2⟩ | ⟨er, _, h2⟩
    · rw [h1]
      have hlen := congrArg List.length h
      simp only [List.length_append, enc_length] at hlen
      have hlen' := congrArg List.length h2
      simp only [List.length_append, enc_length] at hlen'
      rw [h] at h2
      simp only [List.append_assoc] at h2
      obtain ⟨_, h2⟩ := Wolf.UserAuth.encString_inj (by omega) (by omega) h2
      obtain ⟨e1, h3⟩ := Wolf.UserAuth.encString_inj (by omega) (by omega) h2
      obtain ⟨e2, h4⟩ := Wolf.UserAuth.encString_inj (by omega) (by omega) h3
      rw [e1, e2]
    · exact absurd h (h2 _ _ _ _)
  | ecc q =>
    obtain ⟨hf, r, h⟩ := h
    rw [hf]
    exact parseEcc_complete a blob q r hw hn h
  | raw q =>
    obtain ⟨named, nm, r, hf, h1, h2⟩ := h
    rw [hf]
    exact parseRaw_complete a named blob nm q r hw hn h1 h2


/-- `GetSize` and the bytes it announces. -/
theorem size_spec (m : Bytes) (idx : Nat) (hw : m.length < 2 ^ 32) :
    (∃ s, getSize m m.length idx = .ok s.length (idx + 4) ∧ Buffer.read m (idx + 4) s.length = some s ∧
      msgFrom m m.length idx = encString s ++ msgFrom m m.length (idx + 4 + s.length)) ∨
    (∃ e i, getSize m m.length idx = .err e i ∧ Spec.Wire.string (msgFrom m m.length idx) = none) := by
  have hs := C01_getSize m m.length idx (Nat.le_refl _) hw
  cases h : getSize m m.length idx with
  | ub => rw [h] at hs; exact hs.elim
  | err e i => rw [h] at hs; exact .inr ⟨e, i, rfl, hs.2⟩
  | ok v i =>
    rw [h] at hs
    obtain ⟨h1, h2, h3⟩ := hs
    left
    have hlen := msgFrom_length m m.length i (Nat.le_refl _)
    have hst : Spec.Wire.string (msgFrom m m.length idx) = some ((msgFrom m m.length i).take v, (msgFrom m m.length i).drop v) := by
      unfold Spec.Wire.string
      rw [h3]
      dsimp only
      rw [if_pos (by omega)]
    have hinv := Wolf.UserAuth.string_inv hst
    have hsl : ((msgFrom m m.length i).take v).length = v := by rw [List.length_take]; omega
    have hd : (msgFrom m m.length i).drop v = msgFrom m m.length (i + v) := by
      unfold msgFrom; rw [List.drop_drop]
    rw [hd] at hinv
    generalize hs : (msgFrom m m.length i).take v = s at hinv hsl
    have hinv' : msgFrom m m.length idx = encString s ++ msgFrom m m.length (idx + 4 + s.length) := by
      rw [hinv, hsl, h1]
    exact ⟨s, by rw [hsl, h1], (read_enc m m.length idx s (Nat.le_refl _) (by omega) hinv').2, hinv'⟩

theorem size_at {m : Bytes} {idx : Nat} {s rest : Bytes} (hw : m.length < 2 ^ 32)
    (h : msgFrom m m.length idx = encString s ++ rest) :
    getSize m m.length idx = .ok s.length (idx + 4) ∧ Buffer.read m (idx + 4) s.length = some s := by
  have hb := enc_len_bound (Nat.le_refl _) h
  rcases size_spec m idx hw with ⟨s', h1, h2, h3⟩ | ⟨e, i, h1, h2⟩
  · have hb' := enc_len_bound (Nat.le_refl _) h3
    rw [h3] at h
    obtain ⟨rfl, h'⟩ := Wolf.UserAuth.encString_inj (by omega) (by omega) h
    exact ⟨h1, h2⟩
  · rw [h, string_enc s rest (by omega)] at h2; cases h2

theorem checkSig_sound (E : ClientEnv) (pk : PubKey) (h sig : Bytes) (hw : sig.length < 2 ^ 32) :
    (∃ s, checkSig E pk h sig = some (.ok ()) ∧ SigBlock E.host sig s ∧ E.verify pk h s = true) ∨
    (∃ er, checkSig E pk h sig = some (.error er)) := by
  unfold checkSig
  rcases str_ref sig sig.length 0 (Nat.le_refl _) hw with ⟨r, nm, g1, g2, g3, g4, g5, g6, g7⟩ | ⟨i, g1, g2⟩
  · rw [g1, rd, use, g2]
    dsimp only
    by_cases hn : nm ≠ E.host.sigName
    · rw [if_pos hn]; exact .inr ⟨_, rfl⟩
    · rw [if_neg hn]
      rw [msgFrom_all] at g5
      simp only [ne_eq, Decidable.not_not] at hn
      rcases size_spec sig (0 + 4 + nm.length) hw with ⟨s, k1, k2, k3⟩ | ⟨e, i, k1, k2⟩
      · rw [k1, rd, k2]
        dsimp only
        have hsl := enc_len_bound (Nat.le_refl _) k3
        rw [k3, hn, ← List.append_assoc] at g5
        cases hf : E.host.family with
        | rsa =>
          dsimp only
          by_cases h2 : s.length < 2
          · rw [if_pos h2]; exact .inr ⟨_, rfl⟩
          · rw [if_neg h2]
            by_cases hv : E.verify pk h (.blob s) = true
            · rw [if_pos hv]; exact .inl ⟨.blob s, rfl, ⟨by rw [hf]; simp, _, g5⟩, hv⟩
            · rw [if_neg hv]; exact .inr ⟨_, rfl⟩
        | raw named =>
          dsimp only
          by_cases hv : E.verify pk h (.blob s) = true
          · rw [if_pos hv]; exact .inl ⟨.blob s, rfl, ⟨by rw [hf]; simp, _, g5⟩, hv⟩
          · rw [if_neg hv]; exact .inr ⟨_, rfl⟩
        | ecc =>
          dsimp only
          have hs32 : s.length < 2 ^ 32 := by omega
          rcases str_ref s s.length 0 (Nat.le_refl _) hs32 with ⟨r1, x, m1, m2, m3, m4, m5, m6, m7⟩ | ⟨i, m1, m2⟩
          · rw [m1, rd]
            rcases str_ref s s.length (0 + 4 + x.length) (Nat.le_refl _) hs32 with ⟨r2, y, n1, n2, n3, n4, n5, n6, n7⟩ | ⟨i, n1, n2⟩
            · rw [n1, rd, use, m2]
              dsimp only
              rw [use, n2]
              dsimp only
              by_cases hv : E.verify pk h (.rs x y) = true
              · rw [if_pos hv]
                refine .inl ⟨.rs x y, rfl, ⟨hf, msgFrom sig sig.length (0 + 4 + E.host.sigName.length + 4 + s.length), msgFrom s s.length (0 + 4 + x.length + 4 + y.length), ?_⟩, hv⟩
                · rw [msgFrom_all, n5, ← List.append_assoc] at m5
                  rw [← m5]
                  exact g5
              · rw [if_neg hv]; exact .inr ⟨_, rfl⟩
            · rw [n1, rd]; exact .inr ⟨_, rfl⟩
          · rw [m1, rd]; exact .inr ⟨_, rfl⟩
      · rw [k1, rd]; exact .inr ⟨_, rfl⟩
  · rw [g1, rd]; exact .inr ⟨_, rfl⟩

/-- A signature block of the right name with a signature that verifies is accepted. -/
theorem checkSig_complete (E : ClientEnv) (pk : PubKey) (h sig : Bytes) (s : Sig) (hw : sig.length < 2 ^ 32)
    (hb : SigBlock E.host sig s) (hlen : ∀ b, s = .blob b → E.host.family = .rsa → 2 ≤ b.length) (hv : E.verify pk h s = true) :
    checkSig E pk h sig = some (.ok ()) := by
  unfold checkSig
  cases s with
  | blob b =>
    obtain ⟨hf, rest, hb⟩ := hb
    have h0 : msgFrom sig sig.length 0 = encString E.host.sigName ++ (encString b ++ rest) := by
      rw [msgFrom_all, ← List.append_assoc]; exact hb
    obtain ⟨r, g1, g2, g3, g4, g5⟩ := str_ref_at (Nat.le_refl _) hw h0
    rw [g1, rd, use, g2]
    dsimp only
    rw [if_neg (by simp)]
    obtain ⟨k1, k2⟩ := size_at hw g5
    rw [k1, rd, k2]
    dsimp only
    cases hfam : E.host.family with
    | rsa =>
      dsimp only
      rw [if_neg (by have := hlen b rfl hfam; omega), if_pos hv]
    | raw n => dsimp only; rw [if_pos hv]
    | ecc => exact absurd hfam hf
  | rs x y =>
    obtain ⟨hf, rest, rest', hb⟩ := hb
    generalize hs : encString x ++ encString y ++ rest' = s at hb
    have h0 : msgFrom sig sig.length 0 = encString E.host.sigName ++ (encString s ++ rest) := by
      rw [msgFrom_all, ← List.append_assoc]; exact hb
    obtain ⟨r, g1, g2, g3, g4, g5⟩ := str_ref_at (Nat.le_refl _) hw h0
    rw [g1, rd, use, g2]
    dsimp only
    rw [if_neg (by simp)]
    obtain ⟨k1, k2⟩ := size_at hw g5
    have hsl := enc_len_bound (Nat.le_refl _) g5
    rw [k1, rd, k2]
    dsimp only
    rw [hf]
    dsimp only
    have hs32 : s.length < 2 ^ 32 := by omega
    have hs0 : msgFrom s s.length 0 = encString x ++ (encString y ++ rest') := by
      rw [msgFrom_all, ← hs, List.append_assoc]
    obtain ⟨r1, m1, m2, m3, m4, m5⟩ := str_ref_at (Nat.le_refl _) hs32 hs0
    obtain ⟨r2, n1, n2, n3, n4, n5⟩ := str_ref_at (Nat.le_refl _) hs32 m5
    rw [m1, rd, n1, rd, use, m2]
    dsimp only
    rw [use, n2]
    dsimp only
    rw [if_pos hv]

end Proofs.Exchange
