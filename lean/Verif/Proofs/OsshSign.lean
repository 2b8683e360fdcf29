import Verif.Proofs.OsshOptions
import Verif.Spec.OsshJudge
/-! The signature of the authority. -/

set_option linter.unusedSectionVars false

namespace Proofs.Ossh
open Wolf Wolf.Wire Wolf.NameList Wolf.OsshCert Spec.Wire Props.Wire
open Spec.OsshCert (Alg keyName Check Reads NonNegative body encode judge)

theorem finish_ok {b : Bool} {e : Err} {i : Nat} {u : Unit} {j : Nat} : finish b e i = .ok u j ↔ b = true ∧ j = i := by
  unfold finish; cases b <;> simp [eq_comm]

/-- After the name, behind a reference. -/
theorem after_name {mem : Bytes} {r : StrRef} {k name rest : Bytes} (h : Holds mem r k) (hk : k = encString name ++ rest) :
    add32 name.length 4 = 0 + 4 + name.length ∧
      msgFrom (view mem r) r.sz (0 + 4 + name.length) = rest := by
  have hm := h.msg
  have hs := h.small
  rw [hk, List.length_append, enc_length] at hs
  refine ⟨by unfold add32; omega, ?_⟩
  rw [hk] at hm
  exact (str_fwd (by rw [h.sz]; exact h.len) (by rw [h.sz]; exact h.small) hm).2

section
variable {blob : Bytes} {c : Cert} {k sig m name rest : Bytes}
  (hk : Holds blob c.caKey k) (hs : Holds blob c.signature sig) (hm : signedBytes blob c = some m)
  (hkn : k = encString name ++ rest) (hn : Holds (view blob c.caKey) c.caKeyType name)
include hk hs hm hkn hn

theorem ca_len : c.caKey.sz ≤ (view blob c.caKey).length := by rw [hk.sz]; exact hk.len
theorem ca_small : c.caKey.sz < 2 ^ 32 := by rw [hk.sz]; exact hk.small
theorem sig_len : c.signature.sz ≤ (view blob c.signature).length := by rw [hs.sz]; exact hs.len
theorem sig_small : c.signature.sz < 2 ^ 32 := by rw [hs.sz]; exact hs.small

theorem ca_id : caId blob c = some (nameToId keyTable name) := by
  unfold caId lookup; rw [hn.deref]; rfl

theorem ed_iff (K : Crypto) :
    (∃ u j, osshVerifyEd25519 K blob c = .ok u j) ↔
      ∃ pub s tk nm ts, rest = encString pub ++ tk ∧ sig = encString nm ++ encString s ++ ts ∧ K.ed25519 pub s m = true := by
  obtain ⟨a1, a2⟩ := after_name hk hkn
  have kl := ca_len hk hs hm hkn hn
  have ks := ca_small hk hs hm hkn hn
  have sl := sig_len hk hs hm hkn hn
  have ss := sig_small hk hs hm hkn hn
  unfold osshVerifyEd25519
  simp only [hn.sz, a1]
  constructor
  · rintro ⟨u, j, h⟩
    obtain ⟨r1, i1, h1, h⟩ := andThen_ok.1 h
    obtain ⟨pub, rfl, rfl, _, _, m1⟩ := str_inv kl ks h1
    obtain ⟨r2, i2, h2, h⟩ := andThen_ok.1 h
    obtain ⟨nm, rfl, _, _, m2⟩ := skip_inv sl ss h2
    obtain ⟨r3, i3, h3, h⟩ := andThen_ok.1 h
    obtain ⟨s, rfl, rfl, _, _, m3⟩ := str_inv sl ss h3
    rw [str_deref kl m1 ks, str_deref sl m3 ss, hm] at h
    simp only at h
    have := (finish_ok.1 h).1
    rw [hs.msg, m3] at m2
    rw [a2] at m1
    exact ⟨pub, s, _, nm, _, m1, by rw [m2, List.append_assoc], this⟩
  · rintro ⟨pub, s, tk, nm, ts, e1, e2, hv⟩
    rw [e1] at a2
    have b2 := hs.msg
    rw [e2, List.append_assoc] at b2
    obtain ⟨f1, _⟩ := str_fwd kl ks a2
    obtain ⟨f2, m2⟩ := skip_fwd sl ss b2
    obtain ⟨f3, _⟩ := str_fwd sl ss m2
    rw [andThen_of_ok f1, andThen_of_ok f2, andThen_of_ok f3, str_deref kl a2 ks, str_deref sl m2 ss, hm]
    exact ⟨(), _, finish_ok.2 ⟨hv, rfl⟩⟩

theorem ed_ne_ub (K : Crypto) : osshVerifyEd25519 K blob c ≠ .ub := by
  have kl := ca_len hk hs hm hkn hn
  have ks := ca_small hk hs hm hkn hn
  have sl := sig_len hk hs hm hkn hn
  have ss := sig_small hk hs hm hkn hn
  unfold osshVerifyEd25519
  refine andThen_right (str_ne_ub _ kl ks) fun r i h1 => ?_
  obtain ⟨pub, rfl, rfl, _, _, m1⟩ := str_inv kl ks h1
  refine andThen_right (skip_ne_ub _ sl ss) fun r i h1 => ?_
  refine andThen_right (str_ne_ub _ sl ss) fun r i h1 => ?_
  obtain ⟨s, rfl, rfl, _, _, m3⟩ := str_inv sl ss h1
  rw [str_deref kl m1 ks, str_deref sl m3 ss, hm]
  simp only [finish]
  split <;> nofun

/-- The hash of an RSA signature's name. -/
def rsaHash (t : Bytes) : Option Hash :=
  if t = asc "rsa-sha2-256" then some .sha256
  else if t = asc "rsa-sha2-512" then some .sha512
  else none

omit hk hs hm hkn hn in
theorem rsaHash_eq (i : Nat) (t : Bytes) :
    (if (refAt i t).sz = 12 ∧ t = asc "rsa-sha2-256" then some Hash.sha256
      else if (refAt i t).sz = 12 ∧ t = asc "rsa-sha2-512" then some .sha512 else none) = rsaHash t := by
  rw [refAt_sz]
  unfold rsaHash
  have l1 : (asc "rsa-sha2-256").length = 12 := by decide +kernel
  have l2 : (asc "rsa-sha2-512").length = 12 := by decide +kernel
  by_cases h1 : t = asc "rsa-sha2-256"
  · rw [if_pos ⟨by rw [h1, l1], h1⟩, if_pos h1]
  · rw [if_neg (fun h => h1 h.2), if_neg h1]
    by_cases h2 : t = asc "rsa-sha2-512"
    · rw [if_pos ⟨by rw [h2, l2], h2⟩, if_pos h2]
    · rw [if_neg (fun h => h2 h.2), if_neg h2]

theorem rsa_iff (K : Crypto) :
    (∃ u j, osshVerifyRsa K blob c = .ok u j) ↔
      ∃ e n s tk t ts h, rest = encString e ++ encString n ++ tk ∧ sig = encString t ++ encString s ++ ts ∧
        NonNegative e ∧ NonNegative n ∧ rsaHash t = some h ∧ K.rsa h e n s m = true := by
  obtain ⟨a1, a2⟩ := after_name hk hkn
  have kl := ca_len hk hs hm hkn hn
  have ks := ca_small hk hs hm hkn hn
  have sl := sig_len hk hs hm hkn hn
  have ss := sig_small hk hs hm hkn hn
  unfold osshVerifyRsa
  simp only [hn.sz, a1]
  constructor
  · rintro ⟨u, j, h⟩
    obtain ⟨r1, i1, h1, h⟩ := andThen_ok.1 h
    obtain ⟨e, rfl, rfl, _, _, m1, n1⟩ := mpint_inv kl ks h1
    obtain ⟨r1, i1, h1, h⟩ := andThen_ok.1 h
    obtain ⟨n, rfl, rfl, _, _, m1', n1'⟩ := mpint_inv kl ks h1
    obtain ⟨r2, i2, h2, h⟩ := andThen_ok.1 h
    obtain ⟨t, rfl, rfl, _, _, m2⟩ := str_inv sl ss h2
    obtain ⟨r3, i3, h3, h⟩ := andThen_ok.1 h
    obtain ⟨s, rfl, rfl, _, _, m3⟩ := str_inv sl ss h3
    rw [str_deref sl m2 ss] at h
    simp only [rsaHash_eq] at h
    cases hh : rsaHash t with
    | none => rw [hh] at h; cases h
    | some hv =>
      rw [hh] at h
      simp only at h
      rw [str_deref kl m1 ks, str_deref kl m1' ks, str_deref sl m3 ss, hm] at h
      simp only at h
      have := (finish_ok.1 h).1
      rw [hs.msg, m3] at m2
      rw [a2, m1'] at m1
      exact ⟨e, n, s, _, t, _, hv, by rw [m1, List.append_assoc], by rw [m2, List.append_assoc], n1, n1', hh, this⟩
  · rintro ⟨e, n, s, tk, t, ts, h, e1, e2, n1, n2, hh, hv⟩
    rw [e1, List.append_assoc] at a2
    have b2 := hs.msg
    rw [e2, List.append_assoc] at b2
    obtain ⟨f1, m1⟩ := mpint_fwd kl ks a2 n1
    obtain ⟨f1', _⟩ := mpint_fwd kl ks m1 n2
    obtain ⟨f2, m2⟩ := str_fwd sl ss b2
    obtain ⟨f3, _⟩ := str_fwd sl ss m2
    rw [andThen_of_ok f1, andThen_of_ok f1', andThen_of_ok f2, andThen_of_ok f3, str_deref sl b2 ss]
    simp only [rsaHash_eq, hh]
    rw [str_deref kl a2 ks, str_deref kl m1 ks, str_deref sl m2 ss, hm]
    exact ⟨(), _, finish_ok.2 ⟨hv, rfl⟩⟩

theorem rsa_ne_ub (K : Crypto) : osshVerifyRsa K blob c ≠ .ub := by
  have kl := ca_len hk hs hm hkn hn
  have ks := ca_small hk hs hm hkn hn
  have sl := sig_len hk hs hm hkn hn
  have ss := sig_small hk hs hm hkn hn
  unfold osshVerifyRsa
  refine andThen_right (mpint_ne_ub _ kl ks) fun r i h1 => ?_
  obtain ⟨e, rfl, rfl, _, _, m1, _⟩ := mpint_inv kl ks h1
  refine andThen_right (mpint_ne_ub _ kl ks) fun r i h1 => ?_
  obtain ⟨n, rfl, rfl, _, _, m1', _⟩ := mpint_inv kl ks h1
  refine andThen_right (str_ne_ub _ sl ss) fun r i h1 => ?_
  obtain ⟨t, rfl, rfl, _, _, m2⟩ := str_inv sl ss h1
  refine andThen_right (str_ne_ub _ sl ss) fun r i h1 => ?_
  obtain ⟨s, rfl, rfl, _, _, m3⟩ := str_inv sl ss h1
  rw [str_deref sl m2 ss]
  simp only [rsaHash_eq]
  cases rsaHash t with
  | none => nofun
  | some h =>
    simp only
    rw [str_deref kl m1 ks, str_deref kl m1' ks, str_deref sl m3 ss, hm]
    simp only [finish]
    split <;> nofun

/-- Hash and curve of an ECDSA key type. -/
def eccScheme (id : Nat) : Option (Hash × Nat) :=
  if id = ID_ECDSA_SHA2_NISTP256 then some (.sha256, ID_CURVE_NISTP256)
  else if id = ID_ECDSA_SHA2_NISTP384 then some (.sha384, ID_CURVE_NISTP384)
  else if id = ID_ECDSA_SHA2_NISTP521 then some (.sha512, ID_CURVE_NISTP521)
  else none

theorem ecc_iff (K : Crypto) (h0 : Hash) (curve : Nat) (hsc : eccScheme (nameToId keyTable name) = some (h0, curve)) :
    (∃ u j, osshVerifyEcc K blob c = .ok u j) ↔
      ∃ cn q r s tk nm ts tb, rest = encString cn ++ encString q ++ tk ∧
        sig = encString nm ++ encString (encString r ++ encString s ++ tb) ++ ts ∧ nameToId keyTable cn = curve ∧
        NonNegative r ∧ NonNegative s ∧ K.ecdsa h0 q r s m = true := by
  obtain ⟨a1, a2⟩ := after_name hk hkn
  have kl := ca_len hk hs hm hkn hn
  have ks := ca_small hk hs hm hkn hn
  have sl := sig_len hk hs hm hkn hn
  have ss := sig_small hk hs hm hkn hn
  unfold osshVerifyEcc
  rw [ca_id hk hs hm hkn hn]
  unfold eccScheme at hsc
  simp only [hn.sz, a1, hsc]
  constructor
  · rintro ⟨u, j, h⟩
    obtain ⟨r1, i1, h1, h⟩ := andThen_ok.1 h
    obtain ⟨cn, rfl, rfl, _, _, m1⟩ := str_inv kl ks h1
    have hlk : lookup (view blob c.caKey) (refAt (0 + 4 + name.length) cn) = some (nameToId keyTable cn) := by
      unfold lookup; rw [str_deref kl m1 ks]; rfl
    rw [hlk] at h
    simp only at h
    by_cases hcv : nameToId keyTable cn ≠ curve
    · rw [if_pos hcv] at h; cases h
    rw [if_neg hcv] at h
    obtain ⟨r1, i1, h1, h⟩ := andThen_ok.1 h
    obtain ⟨q, rfl, rfl, _, _, m1'⟩ := str_inv kl ks h1
    obtain ⟨r2, i2, h2, h⟩ := andThen_ok.1 h
    obtain ⟨nm, rfl, _, _, m2⟩ := skip_inv sl ss h2
    obtain ⟨r3, i3, h3, h⟩ := andThen_ok.1 h
    obtain ⟨b, rfl, rfl, _, _, m3⟩ := str_inv sl ss h3
    have hb := holds_at sl ss m3
    have bl : (refAt (0 + 4 + nm.length) b).sz ≤ (view (view blob c.signature) (refAt (0 + 4 + nm.length) b)).length := by
      rw [hb.sz]; exact hb.len
    have bs : (refAt (0 + 4 + nm.length) b).sz < 2 ^ 32 := by rw [hb.sz]; exact hb.small
    obtain ⟨r4, i4, h4, h⟩ := andThen_ok.1 h
    obtain ⟨r, rfl, rfl, _, _, m4, n4⟩ := mpint_inv bl bs h4
    obtain ⟨r5, i5, h5, h⟩ := andThen_ok.1 h
    obtain ⟨s, rfl, rfl, _, _, m5, n5⟩ := mpint_inv bl bs h5
    rw [str_deref kl m1' ks, str_deref bl m4 bs, str_deref bl m5 bs, hm] at h
    simp only at h
    have := (finish_ok.1 h).1
    obtain ⟨tb, hb4⟩ : ∃ tb, b = encString r ++ encString s ++ tb :=
      ⟨_, hb.msg.symm.trans (m4.trans (by rw [m5, ← List.append_assoc]))⟩
    obtain ⟨ts, e2⟩ : ∃ ts, sig = encString nm ++ encString b ++ ts :=
      ⟨_, hs.msg.symm.trans (m2.trans (by rw [m3, ← List.append_assoc]))⟩
    rw [hb4] at e2
    rw [a2, m1'] at m1
    exact ⟨cn, q, r, s, _, nm, ts, tb, by rw [m1, List.append_assoc], e2, by simpa using hcv, n4, n5, this⟩
  · rintro ⟨cn, q, r, s, tk, nm, ts, tb, e1, e2, hc, n1, n2, hv⟩
    rw [e1, List.append_assoc] at a2
    have b2 := hs.msg
    rw [e2, List.append_assoc] at b2
    obtain ⟨f1, m1⟩ := str_fwd kl ks a2
    obtain ⟨f1', _⟩ := str_fwd kl ks m1
    obtain ⟨f2, m2⟩ := skip_fwd sl ss b2
    obtain ⟨f3, _⟩ := str_fwd sl ss m2
    have hb := holds_at sl ss m2
    have bl : (refAt (0 + 4 + nm.length) (encString r ++ encString s ++ tb)).sz ≤ (view (view blob c.signature) (refAt (0 + 4 + nm.length) (encString r ++ encString s ++ tb))).length := by
      rw [hb.sz]; exact hb.len
    have bs : (refAt (0 + 4 + nm.length) (encString r ++ encString s ++ tb)).sz < 2 ^ 32 := by rw [hb.sz]; exact hb.small
    have mb := hb.msg.trans (List.append_assoc _ _ _)
    obtain ⟨f4, m4⟩ := mpint_fwd bl bs mb n1
    obtain ⟨f5, _⟩ := mpint_fwd bl bs m4 n2
    have hlk : lookup (view blob c.caKey) (refAt (0 + 4 + name.length) cn) = some (nameToId keyTable cn) := by
      unfold lookup; rw [str_deref kl a2 ks]; rfl
    rw [andThen_of_ok f1, hlk]
    simp only
    rw [if_neg (by simpa using hc)]
    rw [andThen_of_ok f1', andThen_of_ok f2, andThen_of_ok f3, andThen_of_ok f4, andThen_of_ok f5,
      str_deref kl m1 ks, str_deref bl mb bs, str_deref bl m4 bs, hm]
    exact ⟨(), _, finish_ok.2 ⟨hv, rfl⟩⟩

theorem ecc_ne_ub (K : Crypto) : osshVerifyEcc K blob c ≠ .ub := by
  have kl := ca_len hk hs hm hkn hn
  have ks := ca_small hk hs hm hkn hn
  have sl := sig_len hk hs hm hkn hn
  have ss := sig_small hk hs hm hkn hn
  unfold osshVerifyEcc
  rw [ca_id hk hs hm hkn hn]
  simp only
  split
  · nofun
  refine andThen_right (str_ne_ub _ kl ks) fun r i h1 => ?_
  obtain ⟨cn, rfl, rfl, _, _, m1⟩ := str_inv kl ks h1
  unfold lookup
  rw [str_deref kl m1 ks]
  simp only [Option.map_some]
  split
  · nofun
  refine andThen_right (str_ne_ub _ kl ks) fun r i h1 => ?_
  obtain ⟨q, rfl, rfl, _, _, m1'⟩ := str_inv kl ks h1
  refine andThen_right (skip_ne_ub _ sl ss) fun r i h1 => ?_
  refine andThen_right (str_ne_ub _ sl ss) fun r i h1 => ?_
  obtain ⟨b, rfl, rfl, _, _, m3⟩ := str_inv sl ss h1
  have hb := holds_at sl ss m3
  rw [hb.sz]
  refine andThen_right (mpint_ne_ub _ hb.len hb.small) fun r i h1 => ?_
  obtain ⟨rr, rfl, rfl, _, _, m4, _⟩ := mpint_inv hb.len hb.small h1
  refine andThen_right (mpint_ne_ub _ hb.len hb.small) fun r i h1 => ?_
  obtain ⟨s, rfl, rfl, _, _, m5, _⟩ := mpint_inv hb.len hb.small h1
  rw [str_deref kl m1' ks, str_deref hb.len m4 hb.small, str_deref hb.len m5 hb.small, hm]
  simp only [finish]
  split <;> nofun

omit hk hs hm hkn hn in
theorem curve_iff (n : Bytes) (id : Nat) (nm : String)
    (h : (id, nm) ∈ [(ID_CURVE_NISTP256, "nistp256"), (ID_CURVE_NISTP384, "nistp384"), (ID_CURVE_NISTP521, "nistp521")]) :
    nameToId keyTable n = id ↔ n = Spec.OsshCert.ascii nm := by
  simp only [List.mem_cons, Prod.mk.injEq, List.not_mem_nil, or_false] at h
  rcases h with ⟨rfl, rfl⟩ | ⟨rfl, rfl⟩ | ⟨rfl, rfl⟩ <;>
    rw [nameToId_some keyTable n _ (by decide) keyTable_nodup] <;>
    simp [keyTable, ID_SSH_RSA, ID_RSA_SHA2_256, ID_RSA_SHA2_512, ID_ECDSA_SHA2_NISTP256,
      ID_ECDSA_SHA2_NISTP384, ID_ECDSA_SHA2_NISTP521, ID_ED25519, ID_OSSH_CERT_RSA,
      ID_OSSH_CERT_ECDSA_SHA2_NISTP256, ID_OSSH_CERT_ECDSA_SHA2_NISTP384, ID_OSSH_CERT_ECDSA_SHA2_NISTP521,
      ID_OSSH_CERT_ED25519, ID_CURVE_NISTP256, ID_CURVE_NISTP384, ID_CURVE_NISTP521, asc, Spec.OsshCert.ascii, eq_comm]

omit hk hs hm hkn hn in
theorem key_ne {a b : Alg} (h : a ≠ b) : nameToId keyTable (keyName a) ≠ baseId b := by
  rw [Ne, baseName_iff]
  revert h
  cases a <;> cases b <;> first | (intro h; exact absurd rfl h) | (intro _; decide +kernel)

omit hk hs hm hkn hn in
theorem key_id (a : Alg) : nameToId keyTable (keyName a) = baseId a := (baseName_iff a _).2 rfl

omit hs hm hn in
theorem name_is {nm r : Bytes} (e : k = encString nm ++ r) : name = nm ∧ rest = r := by
  have hsm : ∀ (nm r : Bytes), k = encString nm ++ r → nm.length < 2 ^ 32 := by
    intro nm r e
    have := hk.small
    rw [e, List.length_append, enc_length] at this; omega
  exact encString_inj (hsm _ _ hkn) (hsm _ _ e) (hkn.symm.trans e)

omit hk hs hm hkn hn in
theorem rsaHash_some {t : Bytes} {h : Hash} (e : rsaHash t = some h) :
    (t = asc "rsa-sha2-256" ∧ h = .sha256) ∨ (t = asc "rsa-sha2-512" ∧ h = .sha512) := by
  unfold rsaHash at e
  split at e
  · rename_i ht; left; exact ⟨ht, by cases e; rfl⟩
  · split at e
    · rename_i ht; right; exact ⟨ht, by cases e; rfl⟩
    · cases e

omit hk hs hm hkn hn in
theorem rsaHash_256 : rsaHash (Spec.OsshCert.ascii "rsa-sha2-256") = some .sha256 := by
  decide +kernel

omit hk hs hm hkn hn in
theorem rsaHash_512 : rsaHash (Spec.OsshCert.ascii "rsa-sha2-512") = some .sha512 := by
  decide +kernel

/-- The signature is accepted exactly when the scheme accepts the check that key and signature
stand for, over the signed bytes. -/
theorem verify_iff (K : Crypto) :
    (∃ u j, osshCertVerifySignature K blob c = .ok u j) ↔
      ∃ chk, Reads k sig chk ∧ judge K chk m = true := by
  have hk0 : c.caKey.off ≠ none := by
    rw [Ne, hk.null, hkn]; intro h
    have := congrArg List.length h
    rw [List.length_append, enc_length] at this; simp at this
  unfold osshCertVerifySignature
  rw [ca_id hk hs hm hkn hn]
  simp only
  constructor
  · rintro ⟨u, j, h⟩
    split at h
    · cases h
    by_cases e1 : nameToId keyTable name = ID_SSH_RSA
    · rw [if_pos e1] at h
      have hname := (baseName_iff .rsa name).1 e1
      obtain ⟨e, n, s, tk, t, ts, h0, g1, g2, g3, g4, g5, g6⟩ := (rsa_iff hk hs hm hkn hn K).1 ⟨u, j, h⟩
      have hk2 : k = encString (keyName .rsa) ++ encString e ++ encString n ++ tk := by
        rw [hkn, hname, g1]; simp only [List.append_assoc]
      rcases rsaHash_some g5 with ⟨rfl, rfl⟩ | ⟨rfl, rfl⟩
      · exact ⟨.rsa .sha256 e n s, by rw [hk2, g2]; exact .rsa256 e n s tk ts g3 g4, g6⟩
      · exact ⟨.rsa .sha512 e n s, by rw [hk2, g2]; exact .rsa512 e n s tk ts g3 g4, g6⟩
    rw [if_neg e1] at h
    by_cases e2 : nameToId keyTable name = ID_ECDSA_SHA2_NISTP256 ∨ nameToId keyTable name = ID_ECDSA_SHA2_NISTP384 ∨
        nameToId keyTable name = ID_ECDSA_SHA2_NISTP521
    · rw [if_pos e2] at h
      rcases e2 with e2 | e2 | e2
      · have hname := (baseName_iff .ecdsa256 name).1 e2
        have hsc : eccScheme (nameToId keyTable name) = some (.sha256, ID_CURVE_NISTP256) := by rw [e2]; decide
        obtain ⟨cn, q, r, s, tk, nm, ts, tb, g1, g2, g3, g4, g5, g6⟩ := (ecc_iff hk hs hm hkn hn K _ _ hsc).1 ⟨u, j, h⟩
        have g3 := (curve_iff cn _ "nistp256" (by simp)).1 g3
        exact ⟨.ecdsa .sha256 q r s, by
          rw [hkn, hname, g1, g2, g3, ← List.append_assoc, ← List.append_assoc]
          exact .ecdsa256 q r s nm tk ts tb g4 g5, g6⟩
      · have hname := (baseName_iff .ecdsa384 name).1 e2
        have hsc : eccScheme (nameToId keyTable name) = some (.sha384, ID_CURVE_NISTP384) := by rw [e2]; decide
        obtain ⟨cn, q, r, s, tk, nm, ts, tb, g1, g2, g3, g4, g5, g6⟩ := (ecc_iff hk hs hm hkn hn K _ _ hsc).1 ⟨u, j, h⟩
        have g3 := (curve_iff cn _ "nistp384" (by simp)).1 g3
        exact ⟨.ecdsa .sha384 q r s, by
          rw [hkn, hname, g1, g2, g3, ← List.append_assoc, ← List.append_assoc]
          exact .ecdsa384 q r s nm tk ts tb g4 g5, g6⟩
      · have hname := (baseName_iff .ecdsa521 name).1 e2
        have hsc : eccScheme (nameToId keyTable name) = some (.sha512, ID_CURVE_NISTP521) := by rw [e2]; decide
        obtain ⟨cn, q, r, s, tk, nm, ts, tb, g1, g2, g3, g4, g5, g6⟩ := (ecc_iff hk hs hm hkn hn K _ _ hsc).1 ⟨u, j, h⟩
        have g3 := (curve_iff cn _ "nistp521" (by simp)).1 g3
        exact ⟨.ecdsa .sha512 q r s, by
          rw [hkn, hname, g1, g2, g3, ← List.append_assoc, ← List.append_assoc]
          exact .ecdsa521 q r s nm tk ts tb g4 g5, g6⟩
    rw [if_neg e2] at h
    by_cases e3 : nameToId keyTable name = ID_ED25519
    · rw [if_pos e3] at h
      have hname := (baseName_iff .ed25519 name).1 e3
      obtain ⟨pub, s, tk, nm, ts, g1, g2, g3⟩ := (ed_iff hk hs hm hkn hn K).1 ⟨u, j, h⟩
      exact ⟨.ed25519 pub s, by rw [hkn, hname, g1, g2, ← List.append_assoc]; exact .ed25519 pub s nm tk ts, g3⟩
    · rw [if_neg e3] at h; cases h
  · rintro ⟨chk, hr, hv⟩
    have hs0 : c.signature.off ≠ none := by
      rw [Ne, hs.null]; intro h
      subst h
      have hgo : ∀ {a b d : Bytes}, encString a ++ b ++ d = [] → False := by
        intro a b d h
        have := congrArg List.length h
        rw [List.length_append, List.length_append, enc_length] at this; simp at this
      generalize hz : ([] : Bytes) = z at hr
      cases hr <;> exact hgo hz.symm
    rw [if_neg (by simp [hk0, hs0])]
    have rsaCase : ∀ (hh : Hash) (e n s t tk ts : Bytes),
        k = encString (keyName .rsa) ++ encString e ++ encString n ++ tk → sig = encString t ++ encString s ++ ts →
        NonNegative e → NonNegative n → rsaHash t = some hh → K.rsa hh e n s m = true →
        ∃ u j, (if nameToId keyTable name = ID_SSH_RSA then osshVerifyRsa K blob c
          else if nameToId keyTable name = ID_ECDSA_SHA2_NISTP256 ∨ nameToId keyTable name = ID_ECDSA_SHA2_NISTP384 ∨
            nameToId keyTable name = ID_ECDSA_SHA2_NISTP521 then osshVerifyEcc K blob c
          else if nameToId keyTable name = ID_ED25519 then osshVerifyEd25519 K blob c
          else .err .invalidAlgoId 0) = .ok u j := by
      intro hh e n s t tk ts g1 g2 g3 g4 g5 g6
      rw [List.append_assoc, List.append_assoc, ← List.append_assoc (encString e)] at g1
      obtain ⟨q1, q2⟩ := name_is hk hkn g1
      rw [if_pos (by rw [q1]; exact key_id .rsa)]
      exact (rsa_iff hk hs hm hkn hn K).2 ⟨e, n, s, tk, t, ts, hh, q2, g2, g3, g4, g5, g6⟩
    have eccCase : ∀ (a : Alg) (hh : Hash) (cid : Nat) (cn q r s nm tk ts tb : Bytes),
        baseId a ≠ ID_SSH_RSA → (baseId a = ID_ECDSA_SHA2_NISTP256 ∨ baseId a = ID_ECDSA_SHA2_NISTP384 ∨
          baseId a = ID_ECDSA_SHA2_NISTP521) → eccScheme (baseId a) = some (hh, cid) →
        nameToId keyTable cn = cid →
        k = encString (keyName a) ++ encString cn ++ encString q ++ tk →
        sig = encString nm ++ encString (encString r ++ encString s ++ tb) ++ ts →
        NonNegative r → NonNegative s → K.ecdsa hh q r s m = true →
        ∃ u j, (if nameToId keyTable name = ID_SSH_RSA then osshVerifyRsa K blob c
          else if nameToId keyTable name = ID_ECDSA_SHA2_NISTP256 ∨ nameToId keyTable name = ID_ECDSA_SHA2_NISTP384 ∨
            nameToId keyTable name = ID_ECDSA_SHA2_NISTP521 then osshVerifyEcc K blob c
          else if nameToId keyTable name = ID_ED25519 then osshVerifyEd25519 K blob c
          else .err .invalidAlgoId 0) = .ok u j := by
      intro a hh cid cn q r s nm tk ts tb n1 n2 n3 n4 g1 g2 g3 g4 g5
      rw [List.append_assoc, List.append_assoc, ← List.append_assoc (encString cn)] at g1
      obtain ⟨q1, q2⟩ := name_is hk hkn g1
      have hid : nameToId keyTable name = baseId a := by rw [q1]; exact key_id a
      rw [hid, if_neg n1, if_pos n2]
      exact (ecc_iff hk hs hm hkn hn K hh cid (by rw [hid]; exact n3)).2 ⟨cn, q, r, s, tk, nm, ts, tb, q2, g2, n4, g3, g4, g5⟩
    have edCase : ∀ (pub s nm tk ts : Bytes),
        k = encString (keyName .ed25519) ++ encString pub ++ tk → sig = encString nm ++ encString s ++ ts →
        K.ed25519 pub s m = true →
        ∃ u j, (if nameToId keyTable name = ID_SSH_RSA then osshVerifyRsa K blob c
          else if nameToId keyTable name = ID_ECDSA_SHA2_NISTP256 ∨ nameToId keyTable name = ID_ECDSA_SHA2_NISTP384 ∨
            nameToId keyTable name = ID_ECDSA_SHA2_NISTP521 then osshVerifyEcc K blob c
          else if nameToId keyTable name = ID_ED25519 then osshVerifyEd25519 K blob c
          else .err .invalidAlgoId 0) = .ok u j := by
      intro pub s nm tk ts g1 g2 g3
      rw [List.append_assoc] at g1
      obtain ⟨q1, q2⟩ := name_is hk hkn g1
      have hid : nameToId keyTable name = ID_ED25519 := by rw [q1]; exact key_id .ed25519
      rw [hid, if_neg (by decide), if_neg (by decide), if_pos rfl]
      exact (ed_iff hk hs hm hkn hn K).2 ⟨pub, s, tk, nm, ts, q2, g2, g3⟩
    generalize hzk : k = zk at hr
    generalize hzs : sig = zs at hr
    cases hr with
    | rsa256 e n s tk ts he hn' => exact rsaCase _ e n s _ tk ts hzk hzs he hn' rsaHash_256 hv
    | rsa512 e n s tk ts he hn' => exact rsaCase _ e n s _ tk ts hzk hzs he hn' rsaHash_512 hv
    | ecdsa256 q r s nm tk ts tb hr' hs' =>
      exact eccCase .ecdsa256 _ ID_CURVE_NISTP256 _ q r s nm tk ts tb (by decide) (by decide) (by decide)
        ((curve_iff _ _ "nistp256" (by simp)).2 rfl) hzk hzs hr' hs' hv
    | ecdsa384 q r s nm tk ts tb hr' hs' =>
      exact eccCase .ecdsa384 _ ID_CURVE_NISTP384 _ q r s nm tk ts tb (by decide) (by decide) (by decide)
        ((curve_iff _ _ "nistp384" (by simp)).2 rfl) hzk hzs hr' hs' hv
    | ecdsa521 q r s nm tk ts tb hr' hs' =>
      exact eccCase .ecdsa521 _ ID_CURVE_NISTP521 _ q r s nm tk ts tb (by decide) (by decide) (by decide)
        ((curve_iff _ _ "nistp521" (by simp)).2 rfl) hzk hzs hr' hs' hv
    | ed25519 pub s nm tk ts => exact edCase pub s nm tk ts hzk hzs hv

theorem verify_ne_ub (K : Crypto) : osshCertVerifySignature K blob c ≠ .ub := by
  unfold osshCertVerifySignature
  rw [ca_id hk hs hm hkn hn]
  simp only
  split
  · nofun
  split
  · exact rsa_ne_ub hk hs hm hkn hn K
  split
  · exact ecc_ne_ub hk hs hm hkn hn K
  split
  · exact ed_ne_ub hk hs hm hkn hn K
  · nofun

end

end Proofs.Ossh
