import Verif.Proofs.OsshSign
/-! The decision on a certificate. -/

namespace Proofs.Ossh
open Wolf Wolf.Wire Wolf.NameList Wolf.OsshCert Spec.Wire Props.Wire
open Spec.OsshCert (Alg keyName Check Reads NonNegative body encode plainKey WellFormed Acceptable Understood Pairs
  forced sources sigNames encStrings judge shows)

section
variable {alg : Alg} {blob : Bytes} {len : Nat} {c : Cert} {s : Spec.OsshCert.Cert}

theorem Rep.signedBytes (hr : Rep alg blob len c s) (hl : len ≤ blob.length) :
    signedBytes blob c = some (body s) := by
  unfold Wolf.OsshCert.signedBytes
  rw [if_pos (Nat.le_trans hr.signedLe hl)]
  have : blob.take c.signedLen = (blob.take len).take c.signedLen := by
    rw [List.take_take, Nat.min_eq_left hr.signedLe]
  rw [this, hr.bytes, hr.signed, encode]
  simp

open Classical in
theorem Rep.checkType (hr : Rep alg blob len c s) :
    ∃ name rest, s.caKey = encString name ++ rest ∧ osshCertCheckType blob c =
      if s.certType = 1 ∧ ∃ a, name = keyName a then some none else some (some .invalidAlgoId) := by
  obtain ⟨name, rest, hkn, hn⟩ := hr.caKeyType
  refine ⟨name, rest, hkn, ?_⟩
  unfold osshCertCheckType
  rw [hr.certType]
  by_cases h1 : s.certType = 1
  · rw [if_neg (show ¬ s.certType ≠ CERT_TYPE_USER from fun h => h h1)]
    have hid : caId blob c = some (nameToId keyTable name) := by
      unfold caId lookup; rw [hn.deref]; rfl
    rw [hid]
    simp only
    by_cases h2 : ∃ a, name = keyName a
    · have hr : (if s.certType = 1 ∧ ∃ a, name = keyName a then some none else some (some Err.invalidAlgoId)) = some none := if_pos ⟨h1, h2⟩
      rw [hr]
      obtain ⟨a, rfl⟩ := h2
      rw [key_id a]
      rw [if_neg]
      cases a <;> decide
    · have hr : (if s.certType = 1 ∧ ∃ a, name = keyName a then some none else some (some Err.invalidAlgoId)) = some (some Err.invalidAlgoId) := if_neg (fun h => h2 h.2)
      rw [hr, if_pos]
      refine ⟨?_, ?_, ?_, ?_, ?_⟩
      · exact fun e => h2 ⟨_, (baseName_iff .rsa name).1 e⟩
      · exact fun e => h2 ⟨_, (baseName_iff .ecdsa256 name).1 e⟩
      · exact fun e => h2 ⟨_, (baseName_iff .ecdsa384 name).1 e⟩
      · exact fun e => h2 ⟨_, (baseName_iff .ecdsa521 name).1 e⟩
      · exact fun e => h2 ⟨_, (baseName_iff .ed25519 name).1 e⟩
  · rw [if_pos (show s.certType ≠ CERT_TYPE_USER from h1), if_neg (fun h => h1 h.1)]

end

theorem reads_key {k sig : Bytes} {chk : Check} (h : Reads k sig chk) : ∃ a r, k = encString (keyName a) ++ r := by
  cases h with
  | rsa256 e n s tk ts => exact ⟨.rsa, encString e ++ encString n ++ tk, by simp⟩
  | rsa512 e n s tk ts => exact ⟨.rsa, encString e ++ encString n ++ tk, by simp⟩
  | ecdsa256 q r s nm tk => exact ⟨.ecdsa256, encString (Spec.OsshCert.ascii "nistp256") ++ encString q ++ tk, by simp⟩
  | ecdsa384 q r s nm tk => exact ⟨.ecdsa384, encString (Spec.OsshCert.ascii "nistp384") ++ encString q ++ tk, by simp⟩
  | ecdsa521 q r s nm tk => exact ⟨.ecdsa521, encString (Spec.OsshCert.ascii "nistp521") ++ encString q ++ tk, by simp⟩
  | ed25519 pub s nm tk => exact ⟨.ed25519, encString pub ++ tk, by simp⟩

theorem sigOk_iff (alg : Alg) (n : Bytes) : sigOk (baseId alg) (nameToId keyTable n) = true ↔ n ∈ sigNames alg := by
  have h2 : nameToId keyTable n = ID_RSA_SHA2_256 ↔ n = Spec.OsshCert.ascii "rsa-sha2-256" := by
    rw [nameToId_some keyTable n _ (by decide) keyTable_nodup]
    simp [keyTable, ID_SSH_RSA, ID_RSA_SHA2_256, ID_RSA_SHA2_512, ID_ECDSA_SHA2_NISTP256,
      ID_ECDSA_SHA2_NISTP384, ID_ECDSA_SHA2_NISTP521, ID_ED25519, ID_OSSH_CERT_RSA,
      ID_OSSH_CERT_ECDSA_SHA2_NISTP256, ID_OSSH_CERT_ECDSA_SHA2_NISTP384, ID_OSSH_CERT_ECDSA_SHA2_NISTP521,
      ID_OSSH_CERT_ED25519, ID_CURVE_NISTP256, ID_CURVE_NISTP384, ID_CURVE_NISTP521, asc, Spec.OsshCert.ascii, eq_comm]
  have h5 : nameToId keyTable n = ID_RSA_SHA2_512 ↔ n = Spec.OsshCert.ascii "rsa-sha2-512" := by
    rw [nameToId_some keyTable n _ (by decide) keyTable_nodup]
    simp [keyTable, ID_SSH_RSA, ID_RSA_SHA2_256, ID_RSA_SHA2_512, ID_ECDSA_SHA2_NISTP256,
      ID_ECDSA_SHA2_NISTP384, ID_ECDSA_SHA2_NISTP521, ID_ED25519, ID_OSSH_CERT_RSA,
      ID_OSSH_CERT_ECDSA_SHA2_NISTP256, ID_OSSH_CERT_ECDSA_SHA2_NISTP384, ID_OSSH_CERT_ECDSA_SHA2_NISTP521,
      ID_OSSH_CERT_ED25519, ID_CURVE_NISTP256, ID_CURVE_NISTP384, ID_CURVE_NISTP521, asc, Spec.OsshCert.ascii, eq_comm]
  have hb := baseName_iff alg n
  cases alg
  case rsa => 
    simp only [sigOk, baseId, if_pos, Bool.or_eq_true, beq_iff_eq, h2, h5, sigNames, List.mem_cons, List.not_mem_nil, or_false]
  all_goals
    simp only [sigOk, baseId, sigNames, List.mem_cons, List.not_mem_nil, or_false] at hb ⊢
    rw [if_neg (by decide)]
    first
      | (rw [if_pos (by decide)]; simpa using hb)
      | (rw [if_neg (by decide), if_pos (by decide)]; simpa using hb)

theorem idToName_base (alg : Alg) : idToName (baseId alg) = keyName alg := by
  cases alg <;> decide +kernel

theorem c32toa_key (alg : Alg) (x : Bytes) :
    c32toa (keyName alg).length ++ keyName alg ++ x = encString (keyName alg) ++ x := by
  have : c32toa (keyName alg).length = encUint32 (keyName alg).length := c32toa_eq _
  rw [this]; rfl

/-- What the application is shown of the certificate `s`. -/
def shownOf (alg : Alg) (s : Spec.OsshCert.Cert) (opts : List Spec.OsshCert.Option1) (keyType : Bytes) : Shown :=
  { keyType, key := plainKey alg s, caKey := s.caKey, principals := s.principals,
    validAfter := s.validAfter, validBefore := s.validBefore, restrictions := ⟨forced opts, sources opts⟩ }

theorem shownOf_shows (alg : Alg) (s : Spec.OsshCert.Cert) (opts : List Spec.OsshCert.Option1) (kt : Bytes)
    (sh : Shown) : sh = shownOf alg s opts kt ↔ shows alg s opts kt sh := by
  unfold shownOf shows
  obtain ⟨a1, a2, a3, a4, a5, a6, ⟨a7, a8⟩⟩ := sh
  simp

/-- The type of the certified key for the check of the client's signature, and the name shown. -/
def keyTypeOf (alg : Alg) : Option Bytes → Option (Nat × Bytes)
  | none => some (baseId alg, keyName alg)
  | some n => if n ∈ sigNames alg then some (nameToId keyTable n, n) else none

theorem step_iff (K : Crypto) (alg : Alg) (blob : Bytes) (len : Nat) (hl : len ≤ blob.length) (hw : len < 2 ^ 32)
    (sa : Option Bytes) (id : Nat) (sh : Shown) :
    certStep K (certId alg) blob len sa = .accepted id sh ↔
      ∃ s opts kt, WellFormed alg s ∧ blob.take len = encode s ∧ Acceptable (judge K) s opts ∧
        keyTypeOf alg sa = some (id, kt) ∧ sh = shownOf alg s opts kt := by
  have main : ∀ c j s, osshCertParse (certId alg) blob len = .ok c j → Rep alg blob len c s →
      (certStep K (certId alg) blob len sa = .accepted id sh ↔
        ∃ opts kt, Acceptable (judge K) s opts ∧ keyTypeOf alg sa = some (id, kt) ∧ sh = shownOf alg s opts kt) := by
    intro c j s hp hr
    have hsb := hr.signedBytes hl
    obtain ⟨name, rest, hkn, hct⟩ := hr.checkType
    obtain ⟨name', rest', hkn', hn⟩ := hr.caKeyType
    have hnn : name = name' := (name_is hr.caKey hkn hkn').1
    have hver := verify_iff hr.caKey hr.signature hsb hkn' hn K
    have hopt := options_iff hr.critOpts hr.extensions
    unfold certStep
    rw [hp]
    simp only
    rw [hct]
    by_cases hc : s.certType = 1 ∧ ∃ a, name = keyName a
    · rw [if_pos hc]
      simp only
      cases hv : osshCertVerifySignature K blob c with
      | ub => exact absurd hv (verify_ne_ub hr.caKey hr.signature hsb hkn' hn K)
      | err e i =>
        simp only
        constructor
        · nofun
        · rintro ⟨opts, kt, ha, _⟩
          obtain ⟨u, j, h⟩ := hver.2 ha.signed
          rw [hv] at h; cases h
      | ok u i =>
        simp only
        have hsig := hver.1 ⟨u, i, hv⟩
        cases ho : osshCertCheckOptions blob c with
        | ub => exact absurd ho (options_ne_ub hr.critOpts hr.extensions)
        | err e i =>
          simp only
          constructor
          · nofun
          · rintro ⟨opts, kt, ha, _⟩
            obtain ⟨j, h⟩ := (hopt _).2 ⟨ha.extensions, opts, ha.options, rfl⟩
            rw [ho] at h; cases h
        | ok R i =>
          obtain ⟨hpairs, opts, hund, hR⟩ := (hopt R).1 ⟨i, ho⟩
          simp only
          rw [if_pos (Nat.le_trans hr.userKeyLe hl), hr.caKey.deref, hr.principals.deref]
          simp only
          have hkey : c32toa (idToName c.baseTypeId).length ++ idToName c.baseTypeId ++ (blob.drop c.userKeyOff).take c.userKeySz = plainKey alg s := by
            rw [hr.baseTypeId, idToName_base, c32toa_key, hr.userKey]; rfl
          rw [hkey, hr.baseTypeId, idToName_base, hr.validAfter, hr.validBefore]
          have hacc : Acceptable (judge K) s opts := ⟨hc.1, hsig, hund, hpairs⟩
          have uniq : ∀ opts', Acceptable (judge K) s opts' →
              (⟨forced opts', sources opts'⟩ : Restrictions) = R := by
            intro opts' ha
            obtain ⟨j', h⟩ := (hopt _).2 ⟨ha.extensions, opts', ha.options, rfl⟩
            rw [ho] at h; cases h; rfl
          have goal : ∀ (r : Option (Nat × Bytes)), keyTypeOf alg sa = r →
              ((match r with
                | none => Step.rejected
                | some (sid, kt) => Step.accepted sid ⟨kt, plainKey alg s, s.caKey, s.principals, s.validAfter, s.validBefore, R⟩) = .accepted id sh ↔
              ∃ opts kt, Acceptable (judge K) s opts ∧ keyTypeOf alg sa = some (id, kt) ∧ sh = shownOf alg s opts kt) := by
            intro r hrr
            rw [hrr]
            cases r with
            | none => simp
            | some p =>
              obtain ⟨sid, kt⟩ := p
              simp only [Step.accepted.injEq]
              constructor
              · rintro ⟨rfl, rfl⟩
                exact ⟨opts, kt, hacc, rfl, by rw [hR]; rfl⟩
              · rintro ⟨opts', kt', ha, he, rfl⟩
                simp only [Option.some.injEq, Prod.mk.injEq] at he
                obtain ⟨rfl, rfl⟩ := he
                refine ⟨rfl, ?_⟩
                rw [← uniq opts' ha]; rfl
          cases sa with
          | none => exact goal _ rfl
          | some n =>
            simp only
            have := goal _ rfl
            unfold keyTypeOf at this ⊢
            simp only at this ⊢
            by_cases hn : n ∈ sigNames alg
            · rw [if_pos ((sigOk_iff alg n).2 hn)]
              rw [if_pos hn] at this ⊢; exact this
            · rw [if_neg (fun h => hn ((sigOk_iff alg n).1 h))]
              rw [if_neg hn] at this ⊢; exact this
    · rw [if_neg hc]
      simp only
      constructor
      · nofun
      · rintro ⟨opts, kt, ha, _⟩
        exfalso
        obtain ⟨chk, hrd, _⟩ := ha.signed
        obtain ⟨a, r, hk⟩ := reads_key hrd
        exact hc ⟨ha.user, a, (name_is hr.caKey hkn hk).1⟩
  constructor
  · intro h
    cases hp : osshCertParse (certId alg) blob len with
    | ub => unfold certStep at h; rw [hp] at h; cases h
    | err e i => unfold certStep at h; rw [hp] at h; cases h
    | ok c j =>
      obtain ⟨alg', s, he, hr⟩ := parse_sound _ _ _ hl hw c j hp
      have : alg = alg' := by revert he; cases alg <;> cases alg' <;> simp <;> decide
      subst this
      obtain ⟨opts, kt, h1, h2, h3⟩ := (main c j s hp hr).1 h
      exact ⟨s, opts, kt, hr.wf, hr.bytes, h1, h2, h3⟩
  · rintro ⟨s, opts, kt, hwf, hb, h1, h2, h3⟩
    obtain ⟨c, j, hp⟩ := parse_complete alg s hwf blob len hl hw hb
    obtain ⟨alg', s', he, hr⟩ := parse_sound _ _ _ hl hw c j hp
    have : alg = alg' := by revert he; cases alg <;> cases alg' <;> simp <;> decide
    subst this
    have hss : s = s' := by
      refine encode_inj hwf hr.wf rfl ?_ (by rw [← hb, hr.bytes])
      rw [← hb, List.length_take]; omega
    subst hss
    exact (main c j s hp hr).2 ⟨opts, kt, h1, h2, h3⟩

theorem step_ne_ub (K : Crypto) (id : Nat) (blob : Bytes) (len : Nat) (hl : len ≤ blob.length) (hw : len < 2 ^ 32)
    (sa : Option Bytes) : certStep K id blob len sa ≠ .ub := by
  unfold certStep
  cases hp : osshCertParse id blob len with
  | ub => exact absurd hp (parse_ne_ub _ _ _ hl hw)
  | err e i => nofun
  | ok c j =>
    obtain ⟨alg, s, _, hr⟩ := parse_sound _ _ _ hl hw c j hp
    have hsb := hr.signedBytes hl
    obtain ⟨name, rest, hkn, hct⟩ := hr.checkType
    obtain ⟨name', rest', hkn', hn⟩ := hr.caKeyType
    simp only
    rw [hct]
    split
    · rename_i h; split at h <;> cases h
    · nofun
    · split
      · rename_i hv; exact absurd hv (verify_ne_ub hr.caKey hr.signature hsb hkn' hn K)
      · nofun
      · split
        · rename_i ho; exact absurd ho (options_ne_ub hr.critOpts hr.extensions)
        · nofun
        · rw [if_pos (Nat.le_trans hr.userKeyLe hl), hr.caKey.deref, hr.principals.deref]
          simp only
          split
          · nofun
          · split <;> nofun

end Proofs.Ossh
