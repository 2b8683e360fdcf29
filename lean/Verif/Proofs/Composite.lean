import Verif.Spec.Composite
import Verif.Proofs.CertMan
/-!
# Proofs about composite signatures
-/

namespace Proofs.Composite
open Wolf (Byte Bytes add32)
open Wolf.Wire Wolf.Composite Spec.Composite
open Wolf.CertMan (cut)
open Spec.Wire (encString encUint32)
open Proofs.Ossh (msgFrom_length str_inv str_fwd str_deref str_ne_ub enc_length refAt refAt_sz encString_inj)
open Proofs.CertMan (cut_inv cut_fwd cut_ne_ub)
open Props.Wire (msgFrom)

theorem domain_eq : domain = asc "CompositeAlgorithmSignatures2025" := by decide +kernel

theorem label_eq (a : Alg) : (params a).label = label a := by cases a <;> decide +kernel

theorem hash_eq (a : Alg) : ((params a).hash, (params a).hashSz) = hashOf a := by cases a <;> rfl

theorem sig_eq (a : Alg) : (params a).sigSz = (pqSizes a).1 := by cases a <;> rfl

theorem pub_eq (a : Alg) : (params a).pubSz = (pqSizes a).2 := by cases a <;> rfl

theorem tradPub_eq (a : Alg) : (params a).tradPubSz = tradKeySize a := by cases a <;> rfl

theorem prime_eq (a : Alg) (h : Bytes) : mPrime (params a) h = bound a h := by
  unfold mPrime bound
  rw [domain_eq, label_eq]
  simp

theorem digest_iff (L : Lib) (a : Alg) (m d : Bytes) : Digest L a m d ↔ L.hash (params a).hash (params a).hashSz m = some d := by
  unfold Digest
  rw [← hash_eq a]

theorem hash1 (a : Alg) : (params a).hash = (hashOf a).1 := by rw [← hash_eq a]

theorem from_zero (m : Bytes) : msgFrom m m.length 0 = m := by unfold msgFrom; simp

theorem from_end (m : Bytes) (j : Nat) (h : msgFrom m m.length j = []) (hj : j ≤ m.length) : j = m.length := by
  have := congrArg List.length h
  rw [msgFrom_length m _ _ (Nat.le_refl _)] at this
  simp at this
  omega

/-- The traditional part of ECDSA. -/
theorem ecc_iff (L : Lib) (p : Params) (key sig m : Bytes) (hw : sig.length < 2 ^ 32) :
    eccVerify L p key sig m = .success ↔
      ∃ r s d, sig = encString r ++ encString s ∧ L.hash p.hash p.hashSz m = some d ∧ L.ecc key p.hash d r s = true := by
  have hl := Nat.le_refl sig.length
  constructor
  · intro h
    unfold eccVerify at h
    cases h1 : getStringRef sig sig.length 0 with
    | ub => rw [h1] at h; cases h
    | err e i => rw [h1] at h; cases h
    | ok r i =>
      obtain ⟨rb, rfl, a2, a3, a4, a5⟩ := str_inv hl hw h1
      rw [h1] at h
      simp only at h
      cases h2 : getStringRef sig sig.length i with
      | ub => rw [h2] at h; cases h
      | err e i => rw [h2] at h; cases h
      | ok s j =>
        obtain ⟨sb, rfl, b2, b3, b4, b5⟩ := str_inv hl hw h2
        rw [h2] at h
        simp only at h
        by_cases h3 : j ≠ sig.length
        · rw [if_pos h3] at h; cases h
        rw [if_neg h3, str_deref hl a5 hw, str_deref hl b5 hw] at h
        simp only at h
        cases h4 : L.hash p.hash p.hashSz m with
        | none => rw [h4] at h; cases h
        | some d =>
          rw [h4] at h
          simp only at h
          by_cases h5 : L.ecc key p.hash d rb sb = true
          · refine ⟨rb, sb, d, ?_, rfl, h5⟩
            have h6 : j = sig.length := Classical.not_not.1 h3
            have h7 : msgFrom sig sig.length j = [] := by rw [h6]; unfold msgFrom; simp
            rw [b5, h7, List.append_nil, from_zero] at a5
            exact a5
          · rw [if_neg h5] at h; cases h
  · rintro ⟨r, s, d, hs, hd, hv⟩
    have f1 : msgFrom sig sig.length 0 = encString r ++ encString s := by rw [from_zero]; exact hs
    obtain ⟨h1, h2⟩ := str_fwd hl hw f1
    have f2 : msgFrom sig sig.length (0 + 4 + r.length) = encString s ++ [] := by rw [h2, List.append_nil]
    obtain ⟨h3, h4⟩ := str_fwd hl hw f2
    have hlen := congrArg List.length hs
    rw [List.length_append, enc_length, enc_length] at hlen
    unfold eccVerify
    rw [h1]
    simp only
    rw [h3]
    simp only
    rw [if_neg (by omega), str_deref hl f1 hw, str_deref hl f2 hw]
    simp only
    rw [hd]
    simp only
    rw [if_pos hv]

theorem ecc_ne_ub (L : Lib) (p : Params) (key sig m : Bytes) (hw : sig.length < 2 ^ 32) : eccVerify L p key sig m ≠ .ub := by
  have hl := Nat.le_refl sig.length
  unfold eccVerify
  cases h1 : getStringRef sig sig.length 0 with
  | ub => exact absurd h1 (str_ne_ub 0 hl hw)
  | err e i => exact fun h => by cases h
  | ok r i =>
    obtain ⟨rb, rfl, a2, a3, a4, a5⟩ := str_inv hl hw h1
    simp only
    cases h2 : getStringRef sig sig.length i with
    | ub => exact absurd h2 (str_ne_ub i hl hw)
    | err e i => exact fun h => by cases h
    | ok s j =>
      obtain ⟨sb, rfl, b2, b3, b4, b5⟩ := str_inv hl hw h2
      simp only
      by_cases h3 : j ≠ sig.length
      · rw [if_pos h3]; exact fun h => by cases h
      rw [if_neg h3, str_deref hl a5 hw, str_deref hl b5 hw]
      simp only
      cases h4 : L.hash p.hash p.hashSz m with
      | none => exact fun h => by cases h
      | some d =>
        simp only
        by_cases h5 : L.ecc key p.hash d rb sb = true
        · rw [if_pos h5]; exact fun h => by cases h
        · rw [if_neg h5]; exact fun h => by cases h

/-- What `verify` demands of the size of the rest. -/
def sizeOk (a : Alg) (n : Nat) : Prop := if (params a).trad = .ecc then n ≤ (params a).tradSigSz else n = (params a).tradSigSz

theorem trad_iff (L : Lib) (a : Alg) (key m t : Bytes) (hw : t.length < 2 ^ 32) :
    TradGood L a key m t ↔ sizeOk a t.length ∧ tradVerify L (params a) key t m = .success := by
  have he : ∀ n, (params a).trad = .ecc → (params a).tradSigSz = 2 * (4 + n + 1) →
      ((∃ r s d, t = encString r ++ encString s ∧ t.length ≤ 2 * (4 + n + 1) ∧ Digest L a m d ∧ L.ecc key (hashOf a).1 d r s = true) ↔
        sizeOk a t.length ∧ tradVerify L (params a) key t m = .success) := by
    intro n ht hz
    unfold sizeOk tradVerify
    rw [if_pos ht, ht, hz]
    simp only
    rw [ecc_iff L _ key t m hw]
    constructor
    · rintro ⟨r, s, d, h1, h2, h3, h4⟩
      exact ⟨h2, r, s, d, h1, (digest_iff ..).1 h3, by rw [hash1]; exact h4⟩
    · rintro ⟨h2, r, s, d, h1, h3, h4⟩
      exact ⟨r, s, d, h1, h2, (digest_iff ..).2 h3, by rw [← hash1]; exact h4⟩
  unfold TradGood
  cases a with
  | es44 => exact he 32 rfl rfl
  | es65 => exact he 32 rfl rfl
  | es87 => exact he 48 rfl rfl
  | ed44 => show _ ↔ _ ∧ (if _ then _ else _) = _; simp [kind, sizeOk, params]
  | ed65 => show _ ↔ _ ∧ (if _ then _ else _) = _; simp [kind, sizeOk, params]
  | ed87 => show _ ↔ _ ∧ (if _ then _ else _) = _; simp [kind, sizeOk, params]

theorem size_iff (a : Alg) (n : Nat) (h : (params a).sigSz ≤ n) : sizeOk a (n - (params a).sigSz) ↔
    ¬ ((params a).trad ≠ .ecc ∧ n ≠ (params a).sigSz + (params a).tradSigSz) ∧ ¬ ((params a).trad = .ecc ∧ (params a).tradSigSz < n - (params a).sigSz) := by
  unfold sizeOk
  by_cases ht : (params a).trad = .ecc
  · rw [if_pos ht]; simp only [ht, ne_eq, not_true_eq_false, false_and, not_false_eq_true, true_and]; omega
  · rw [if_neg ht]
    constructor
    · intro h'
      exact ⟨fun hh => hh.2 (by omega), fun hh => ht hh.1⟩
    · rintro ⟨h1, _⟩
      have : n = (params a).sigSz + (params a).tradSigSz := Classical.not_not.1 (fun e => h1 ⟨ht, e⟩)
      omega

theorem verify_iff (L : Lib) (a : Alg) (pq trad sig msg : Bytes) (hw : sig.length < 2 ^ 32) :
    verify L a pq trad sig msg = .success ↔ Good L a pq trad sig msg := by
  constructor
  · intro h
    unfold verify at h
    by_cases h1 : sig.length < (params a).sigSz
    · rw [if_pos h1] at h; cases h
    rw [if_neg h1] at h
    by_cases h2 : (params a).trad ≠ .ecc ∧ sig.length ≠ (params a).sigSz + (params a).tradSigSz
    · rw [if_pos h2] at h; cases h
    rw [if_neg h2] at h
    by_cases h3 : (params a).trad = .ecc ∧ (params a).tradSigSz < sig.length - (params a).sigSz
    · rw [if_pos h3] at h; cases h
    rw [if_neg h3] at h
    have hs := (size_iff a sig.length (by omega)).2 ⟨h2, h3⟩
    cases h4 : L.hash (params a).hash (params a).hashSz msg with
    | none => rw [h4] at h; cases h
    | some d =>
      rw [h4] at h
      simp only at h
      cases h5 : tradVerify L (params a) trad (sig.drop (params a).sigSz) (mPrime (params a) d) with
      | success =>
        rw [h5] at h
        simp only at h
        by_cases h6 : L.mldsa a pq (params a).label (mPrime (params a) d) (sig.take (params a).sigSz) = true
        · refine ⟨d, sig.take (params a).sigSz, sig.drop (params a).sigSz, (digest_iff ..).2 h4, (List.take_append_drop ..).symm, ?_, ?_, ?_⟩
          · rw [List.length_take, sig_eq]; rw [sig_eq] at h1; omega
          · rw [← label_eq, ← prime_eq]; exact h6
          · rw [← prime_eq]
            exact (trad_iff L a trad _ _ (by rw [List.length_drop]; omega)).2 ⟨by rw [List.length_drop]; exact hs, h5⟩
        · rw [if_neg h6] at h; cases h
      | _ => rw [h5] at h; cases h
  · rintro ⟨d, x, t, h1, rfl, h3, h4, h5⟩
    rw [List.length_append] at hw
    rw [← prime_eq] at h5
    obtain ⟨h6, h7⟩ := (trad_iff L a trad _ t (by omega)).1 h5
    rw [← sig_eq] at h3
    have hsub : (x ++ t).length - (params a).sigSz = t.length := by rw [List.length_append]; omega
    have hge : (params a).sigSz ≤ (x ++ t).length := by rw [List.length_append]; omega
    rw [← hsub] at h6
    obtain ⟨h8, h9⟩ := (size_iff a (x ++ t).length hge).1 h6
    unfold verify
    rw [if_neg (by omega), if_neg h8, if_neg h9, (digest_iff ..).1 h1]
    simp only
    rw [List.drop_left' h3, List.take_left' h3, h7]
    simp only
    rw [if_pos (by rw [label_eq, prime_eq]; exact h4)]

theorem verify_ne_ub (L : Lib) (a : Alg) (pq trad sig msg : Bytes) (hw : sig.length < 2 ^ 32) : verify L a pq trad sig msg ≠ .ub := by
  unfold verify
  by_cases h1 : sig.length < (params a).sigSz
  · rw [if_pos h1]; exact fun h => by cases h
  rw [if_neg h1]
  by_cases h2 : (params a).trad ≠ .ecc ∧ sig.length ≠ (params a).sigSz + (params a).tradSigSz
  · rw [if_pos h2]; exact fun h => by cases h
  rw [if_neg h2]
  by_cases h3 : (params a).trad = .ecc ∧ (params a).tradSigSz < sig.length - (params a).sigSz
  · rw [if_pos h3]; exact fun h => by cases h
  rw [if_neg h3]
  cases h4 : L.hash (params a).hash (params a).hashSz msg with
  | none => exact fun h => by cases h
  | some d =>
    simp only
    have hne : tradVerify L (params a) trad (sig.drop (params a).sigSz) (mPrime (params a) d) ≠ .ub := by
      unfold tradVerify
      cases (params a).trad with
      | ecc => exact ecc_ne_ub _ _ _ _ _ (by rw [List.length_drop]; omega)
      | ed25519 => simp only; cases L.ed .ed25519 trad (mPrime (params a) d) (sig.drop (params a).sigSz) <;> exact fun h => by cases h
      | ed448 => simp only; cases L.ed .ed448 trad (mPrime (params a) d) (sig.drop (params a).sigSz) <;> exact fun h => by cases h
    cases h5 : tradVerify L (params a) trad (sig.drop (params a).sigSz) (mPrime (params a) d) with
    | ub => exact absurd h5 hne
    | success =>
      simp only
      cases L.mldsa a pq (params a).label (mPrime (params a) d) (sig.take (params a).sigSz) <;> exact fun h => by cases h
    | _ => exact fun h => by cases h

/-! ## Names -/

theorem zero_split {l l' h h' : Bytes} (hl : (0 : UInt8) ∉ l) (hl' : (0 : UInt8) ∉ l') (e : l ++ 0 :: h = l' ++ 0 :: h') : l = l' ∧ h = h' := by
  induction l generalizing l' with
  | nil =>
    cases l' with
    | nil => injection e with _ e; exact ⟨rfl, e⟩
    | cons b l' => injection e with e _; exact absurd (by rw [e]; exact List.mem_cons_self ..) hl'
  | cons a l ih =>
    cases l' with
    | nil => injection e with e _; exact absurd (by rw [e]; exact List.mem_cons_self ..) hl
    | cons b l' =>
      injection e with e1 e2
      obtain ⟨h1, h2⟩ := ih (fun h => hl (List.mem_cons_of_mem _ h)) (fun h => hl' (List.mem_cons_of_mem _ h)) e2
      exact ⟨by rw [e1, h1], h2⟩

theorem label_nul (a : Alg) : (0 : UInt8) ∉ label a := by cases a <;> decide +kernel

theorem label_inj (a b : Alg) (h : label a = label b) : a = b := by
  have : ∀ a b : Alg, (if label a = label b then decide (a = b) else true) = true := by
    intro a b
    cases a <;> cases b <;> decide +kernel
  have := this a b
  rw [if_pos h] at this
  exact of_decide_eq_true this

/-! ## Signing -/

theorem pad_enc (r : Bytes) : c32toa (r.length + (pad r).length) ++ pad r ++ r = encString (pad r ++ r) := by
  unfold encString
  rw [c32toa_eq, List.length_append, Nat.add_comm, List.append_assoc]

theorem sign_inv {L : Lib} {S : Signer} {a : Alg} {cap : Nat} {msg sig : Bytes} (h : sign L S a cap msg = .ok sig) :
    (params a).sigSz + (params a).tradSigSz ≤ cap ∧
    ∃ d x t, L.hash (params a).hash (params a).hashSz msg = some d ∧ S.mldsa (params a).label (mPrime (params a) d) = some x ∧
      x.length = (params a).sigSz ∧ tradSign L S (params a) (mPrime (params a) d) = .ok t ∧ sig = x ++ t := by
  unfold sign at h
  by_cases h1 : cap < (params a).sigSz + (params a).tradSigSz
  · rw [if_pos h1] at h; cases h
  rw [if_neg h1] at h
  refine ⟨by omega, ?_⟩
  cases h2 : L.hash (params a).hash (params a).hashSz msg with
  | none => rw [h2] at h; cases h
  | some d =>
    rw [h2] at h
    simp only at h
    cases h3 : S.mldsa (params a).label (mPrime (params a) d) with
    | none => rw [h3] at h; cases h
    | some x =>
      rw [h3] at h
      simp only at h
      by_cases h4 : x.length ≠ (params a).sigSz
      · rw [if_pos h4] at h; cases h
      rw [if_neg h4] at h
      cases h5 : tradSign L S (params a) (mPrime (params a) d) with
      | error e => rw [h5] at h; cases h
      | ok t =>
        rw [h5] at h
        injection h with h
        exact ⟨d, x, t, rfl, h3, Classical.not_not.1 h4, h5, h.symm⟩

theorem eccSign_inv {L : Lib} {S : Signer} {p : Params} {m t : Bytes} (h : eccSign L S p m = .ok t) :
    ∃ d r s, L.hash p.hash p.hashSz m = some d ∧ S.ecc d = some (r, s) ∧ t = encString (pad r ++ r) ++ encString (pad s ++ s) ∧
      t.length ≤ p.tradSigSz := by
  unfold eccSign at h
  cases h1 : L.hash p.hash p.hashSz m with
  | none => rw [h1] at h; cases h
  | some d =>
    rw [h1] at h
    simp only at h
    cases h2 : S.ecc d with
    | none => rw [h2] at h; cases h
    | some rs =>
      obtain ⟨r, s⟩ := rs
      rw [h2] at h
      simp only at h
      by_cases h3 : p.tradSigSz < 2 * 4 + r.length + (pad r).length + s.length + (pad s).length
      · rw [if_pos h3] at h; cases h
      rw [if_neg h3] at h
      injection h with h
      have ht : t = encString (pad r ++ r) ++ encString (pad s ++ s) := by
        rw [← h, ← pad_enc r, ← pad_enc s]
        simp
      refine ⟨d, r, s, rfl, h2, ht, ?_⟩
      rw [ht, List.length_append, enc_length, enc_length, List.length_append, List.length_append]
      omega

theorem edSign_inv {S : Signer} {p : Params} {e : Ret} {n : Nat} {m t : Bytes} (h : edSign S p e n m = .ok t) :
    S.ed m = some t ∧ t.length = n ∧ n ≤ p.tradSigSz := by
  unfold edSign at h
  by_cases h1 : p.tradSigSz < n
  · rw [if_pos h1] at h; cases h
  rw [if_neg h1] at h
  cases h2 : S.ed m with
  | none => rw [h2] at h; cases h
  | some s =>
    rw [h2] at h
    simp only at h
    by_cases h3 : s.length ≠ n
    · rw [if_pos h3] at h; cases h
    rw [if_neg h3] at h
    injection h with h
    subst h
    exact ⟨rfl, Classical.not_not.1 h3, by omega⟩

theorem tradSign_size {L : Lib} {S : Signer} {p : Params} {m t : Bytes} (h : tradSign L S p m = .ok t) : t.length ≤ p.tradSigSz := by
  unfold tradSign at h
  cases ht : p.trad with
  | ecc => rw [ht] at h; exact (eccSign_inv h).choose_spec.choose_spec.choose_spec.2.2.2
  | ed25519 => rw [ht] at h; obtain ⟨_, h1, h2⟩ := edSign_inv h; omega
  | ed448 => rw [ht] at h; obtain ⟨_, h1, h2⟩ := edSign_inv h; omega

theorem pad_beNat (r : Bytes) : Spec.Wire.beNat (pad r ++ r) = Spec.Wire.beNat r := by
  unfold pad
  by_cases h : r.headD 0 &&& 0x80 ≠ 0
  · rw [if_pos h, List.singleton_append, beNat_cons]; simp
  · rw [if_neg h]; rfl

end Proofs.Composite
