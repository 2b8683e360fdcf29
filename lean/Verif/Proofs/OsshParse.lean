import Verif.Proofs.OsshWire
/-! Parsing of a certificate is exactly the reading of its encoding. -/

namespace Proofs.Ossh
open Wolf Wolf.Wire Wolf.NameList Wolf.OsshCert Spec.Wire Props.Wire
open Spec.OsshCert (Alg encStrings encUint64 certNames keyName keyParts NonNegative WellFormed encode body plainKey)

/-- Looking a name up in a table without repeated names. -/
theorem nameToId_some (t : Table) (n : Bytes) (id : Nat) (hid : id ≠ ID_UNKNOWN)
    (hd : (t.map (·.name)).Nodup) : nameToId t n = id ↔ ∃ e ∈ t, e.id = id ∧ e.name = n := by
  induction t with
  | nil => simp [nameToId, nameToIdType]; exact fun h => hid h.symm
  | cons a t ih =>
    simp only [List.map_cons, List.nodup_cons] at hd
    have ih := ih hd.2
    unfold nameToId nameToIdType
    by_cases h : n.length = a.name.length ∧ n = a.name
    · rw [if_pos h]
      simp only
      constructor
      · intro hi; exact ⟨a, by simp, hi, h.2.symm⟩
      · rintro ⟨e, he, h1, h2⟩
        rcases List.mem_cons.1 he with rfl | he
        · exact h1
        · exfalso; apply hd.1
          rw [← h.2, ← h2]; exact List.mem_map.2 ⟨e, he, rfl⟩
    · rw [if_neg h]
      unfold nameToId at ih
      rw [ih]
      constructor
      · rintro ⟨e, he, h1, h2⟩; exact ⟨e, by simp [he], h1, h2⟩
      · rintro ⟨e, he, h1, h2⟩
        rcases List.mem_cons.1 he with rfl | he
        · exact absurd ⟨by rw [h2], h2.symm⟩ h
        · exact ⟨e, he, h1, h2⟩

theorem keyTable_nodup : (keyTable.map (·.name)).Nodup := by decide +kernel

/-- The identifier of a certificate type. -/
def certId : Alg → Nat
  | .rsa => ID_OSSH_CERT_RSA
  | .ecdsa256 => ID_OSSH_CERT_ECDSA_SHA2_NISTP256
  | .ecdsa384 => ID_OSSH_CERT_ECDSA_SHA2_NISTP384
  | .ecdsa521 => ID_OSSH_CERT_ECDSA_SHA2_NISTP521
  | .ed25519 => ID_OSSH_CERT_ED25519

/-- The identifier of the plain key type. -/
def baseId : Alg → Nat
  | .rsa => ID_SSH_RSA
  | .ecdsa256 => ID_ECDSA_SHA2_NISTP256
  | .ecdsa384 => ID_ECDSA_SHA2_NISTP384
  | .ecdsa521 => ID_ECDSA_SHA2_NISTP521
  | .ed25519 => ID_ED25519

theorem base_of_cert (alg : Alg) : osshCertBaseId (certId alg) = baseId alg := by cases alg <;> decide

theorem base_known (alg : Alg) : baseId alg ≠ ID_UNKNOWN := by cases alg <;> decide

theorem cert_of_base {id : Nat} (h : osshCertBaseId id ≠ ID_UNKNOWN) : ∃ alg, id = certId alg := by
  unfold osshCertBaseId at h
  by_cases h1 : id = ID_OSSH_CERT_RSA
  · exact ⟨.rsa, h1⟩
  by_cases h2 : id = ID_OSSH_CERT_ECDSA_SHA2_NISTP256
  · exact ⟨.ecdsa256, h2⟩
  by_cases h3 : id = ID_OSSH_CERT_ECDSA_SHA2_NISTP384
  · exact ⟨.ecdsa384, h3⟩
  by_cases h4 : id = ID_OSSH_CERT_ECDSA_SHA2_NISTP521
  · exact ⟨.ecdsa521, h4⟩
  by_cases h5 : id = ID_OSSH_CERT_ED25519
  · exact ⟨.ed25519, h5⟩
  simp [h1, h2, h3, h4, h5] at h

theorem certName_iff (alg : Alg) (n : Bytes) : nameToId keyTable n = certId alg ↔ n ∈ certNames alg := by
  rw [nameToId_some keyTable n _ (by cases alg <;> decide) keyTable_nodup]
  cases alg <;>
    simp [keyTable, certId, certNames, ID_SSH_RSA, ID_RSA_SHA2_256, ID_RSA_SHA2_512, ID_ECDSA_SHA2_NISTP256,
      ID_ECDSA_SHA2_NISTP384, ID_ECDSA_SHA2_NISTP521, ID_ED25519, ID_OSSH_CERT_RSA,
      ID_OSSH_CERT_ECDSA_SHA2_NISTP256, ID_OSSH_CERT_ECDSA_SHA2_NISTP384, ID_OSSH_CERT_ECDSA_SHA2_NISTP521,
      ID_OSSH_CERT_ED25519, ID_CURVE_NISTP256, ID_CURVE_NISTP384, ID_CURVE_NISTP521, asc, Spec.OsshCert.ascii, eq_comm]

theorem baseName_iff (alg : Alg) (n : Bytes) : nameToId keyTable n = baseId alg ↔ n = keyName alg := by
  rw [nameToId_some keyTable n _ (base_known alg) keyTable_nodup]
  cases alg <;>
    simp [keyTable, baseId, keyName, ID_SSH_RSA, ID_RSA_SHA2_256, ID_RSA_SHA2_512, ID_ECDSA_SHA2_NISTP256,
      ID_ECDSA_SHA2_NISTP384, ID_ECDSA_SHA2_NISTP521, ID_ED25519, ID_OSSH_CERT_RSA,
      ID_OSSH_CERT_ECDSA_SHA2_NISTP256, ID_OSSH_CERT_ECDSA_SHA2_NISTP384, ID_OSSH_CERT_ECDSA_SHA2_NISTP521,
      ID_OSSH_CERT_ED25519, ID_CURVE_NISTP256, ID_CURVE_NISTP384, ID_CURVE_NISTP521, asc, Spec.OsshCert.ascii, eq_comm]

variable {mem : Bytes} {len : Nat}

theorem encStrings_one (a : Bytes) : encStrings [a] = encString a := by simp [encStrings]
theorem encStrings_two (a b : Bytes) : encStrings [a, b] = encString a ++ encString b := by simp [encStrings]

theorem skipKey_inv {alg : Alg} {idx i : Nat} {u : Unit} (hl : len ≤ mem.length) (hw : len < 2 ^ 32)
    (h : osshSkipUserKey (baseId alg) mem len idx = .ok u i) :
    ∃ ks, ks.length = keyParts alg ∧ (alg = .rsa → ∀ k ∈ ks, NonNegative k) ∧ i ≤ len ∧
      i = idx + (encStrings ks).length ∧ msgFrom mem len idx = encStrings ks ++ msgFrom mem len i := by
  cases alg
  case rsa =>
    simp only [osshSkipUserKey, baseId, if_pos] at h
    obtain ⟨r1, i1, h1, h⟩ := andThen_ok.1 h
    obtain ⟨r2, i2, h2, h⟩ := andThen_ok.1 h
    obtain ⟨a, _, rfl, _, _, m1, n1⟩ := mpint_inv hl hw h1
    obtain ⟨b, _, rfl, hb, _, m2, n2⟩ := mpint_inv hl hw h2
    simp only [Res.ok.injEq, true_and] at h
    subst h
    refine ⟨[a, b], rfl, ?_, hb, ?_, ?_⟩
    · intro _ k hk
      simp only [List.mem_cons, List.not_mem_nil, or_false] at hk
      rcases hk with rfl | rfl <;> assumption
    · rw [encStrings_two, List.length_append, enc_length, enc_length]; omega
    · rw [encStrings_two, List.append_assoc, m1, m2]
  case ed25519 =>
    have e1 : (ID_ED25519 = ID_SSH_RSA) = False := by decide
    have e2 : (ID_ED25519 = ID_ECDSA_SHA2_NISTP256 ∨ ID_ED25519 = ID_ECDSA_SHA2_NISTP384 ∨ ID_ED25519 = ID_ECDSA_SHA2_NISTP521) = False := by decide
    simp only [osshSkipUserKey, baseId, e1, e2, if_false, if_true] at h
    obtain ⟨r1, i1, h1, h⟩ := andThen_ok.1 h
    obtain ⟨a, _, rfl, ha, _, m1⟩ := str_inv hl hw h1
    simp only [Res.ok.injEq, true_and] at h
    subst h
    refine ⟨[a], rfl, nofun, ha, ?_, ?_⟩
    · rw [encStrings_one, enc_length]; omega
    · rw [encStrings_one, m1]
  all_goals
    simp only [osshSkipUserKey, baseId] at h
    rw [if_neg (by decide), if_pos (by decide)] at h
    obtain ⟨r1, i1, h1, h⟩ := andThen_ok.1 h
    obtain ⟨r2, i2, h2, h⟩ := andThen_ok.1 h
    obtain ⟨a, _, rfl, _, _, m1⟩ := str_inv hl hw h1
    obtain ⟨b, _, rfl, hb, _, m2⟩ := str_inv hl hw h2
    simp only [Res.ok.injEq, true_and] at h
    subst h
    refine ⟨[a, b], rfl, nofun, hb, ?_, ?_⟩
    · rw [encStrings_two, List.length_append, enc_length, enc_length]; omega
    · rw [encStrings_two, List.append_assoc, m1, m2]

theorem list_two {α : Type} {l : List α} (h : l.length = 2) : ∃ a b, l = [a, b] := by
  match l, h with
  | [a, b], _ => exact ⟨a, b, rfl⟩

theorem list_one {α : Type} {l : List α} (h : l.length = 1) : ∃ a, l = [a] := by
  match l, h with
  | [a], _ => exact ⟨a, rfl⟩

theorem skipKey_fwd {alg : Alg} {idx : Nat} {ks : List Bytes} {rest : Bytes} (hl : len ≤ mem.length) (hw : len < 2 ^ 32)
    (hk : ks.length = keyParts alg) (hn : alg = .rsa → ∀ k ∈ ks, NonNegative k)
    (hm : msgFrom mem len idx = encStrings ks ++ rest) :
    osshSkipUserKey (baseId alg) mem len idx = .ok () (idx + (encStrings ks).length) ∧
      msgFrom mem len (idx + (encStrings ks).length) = rest := by
  cases alg
  case rsa =>
    obtain ⟨a, b, rfl⟩ := list_two hk
    rw [encStrings_two, List.append_assoc] at hm
    obtain ⟨g1, m1⟩ := mpint_fwd hl hw hm (hn rfl a (by simp))
    obtain ⟨g2, m2⟩ := mpint_fwd hl hw m1 (hn rfl b (by simp))
    have : idx + (encStrings [a, b]).length = idx + 4 + a.length + 4 + b.length := by
      rw [encStrings_two, List.length_append, enc_length, enc_length]; omega
    rw [this]
    refine ⟨?_, m2⟩
    simp only [osshSkipUserKey, baseId, if_pos]
    rw [andThen_of_ok g1, andThen_of_ok g2]
  case ed25519 =>
    obtain ⟨a, rfl⟩ := list_one hk
    rw [encStrings_one] at hm
    obtain ⟨g1, m1⟩ := str_fwd hl hw hm
    have : idx + (encStrings [a]).length = idx + 4 + a.length := by
      rw [encStrings_one, enc_length]; omega
    rw [this]
    refine ⟨?_, m1⟩
    unfold osshSkipUserKey
    rw [if_neg (by decide), if_neg (by decide), if_pos (by decide)]
    rw [andThen_of_ok g1]
  all_goals
    obtain ⟨a, b, rfl⟩ := list_two hk
    rw [encStrings_two, List.append_assoc] at hm
    obtain ⟨g1, m1⟩ := str_fwd hl hw hm
    obtain ⟨g2, m2⟩ := str_fwd hl hw m1
    have : idx + (encStrings [a, b]).length = idx + 4 + a.length + 4 + b.length := by
      rw [encStrings_two, List.length_append, enc_length, enc_length]; omega
    rw [this]
    refine ⟨?_, m2⟩
    unfold osshSkipUserKey
    rw [if_neg (by decide), if_pos (by decide)]
    rw [andThen_of_ok g1, andThen_of_ok g2]

theorem skipKey_ne_ub (b idx : Nat) (hl : len ≤ mem.length) (hw : len < 2 ^ 32) :
    osshSkipUserKey b mem len idx ≠ .ub := by
  unfold osshSkipUserKey
  intro h
  split at h
  · rcases andThen_ub.1 h with h | ⟨_, i, _, h⟩
    · exact mpint_ne_ub _ hl hw h
    rcases andThen_ub.1 h with h | ⟨_, i, _, h⟩
    · exact mpint_ne_ub _ hl hw h
    cases h
  · split at h
    · rcases andThen_ub.1 h with h | ⟨_, i, _, h⟩
      · exact str_ne_ub _ hl hw h
      rcases andThen_ub.1 h with h | ⟨_, i, _, h⟩
      · exact str_ne_ub _ hl hw h
      cases h
    · split at h
      · rcases andThen_ub.1 h with h | ⟨_, i, _, h⟩
        · exact str_ne_ub _ hl hw h
        cases h
      · cases h

/-- The reference stands for the bytes: dereferencing gives them, and a reader behind it reads them. -/
structure Holds (mem : Bytes) (r : StrRef) (s : Bytes) : Prop where
  deref : deref mem r = some s
  sz : r.sz = s.length
  null : r.off = none ↔ s = []
  view : (view mem r).take s.length = s
  len : s.length ≤ (Wolf.OsshCert.view mem r).length
  small : s.length < 2 ^ 32

theorem Holds.msg {mem : Bytes} {r : StrRef} {s : Bytes} (h : Holds mem r s) :
    msgFrom (Wolf.OsshCert.view mem r) r.sz 0 = s := by
  unfold msgFrom; rw [h.sz, h.view]; rfl

theorem holds_at {idx : Nat} {s rest : Bytes} (hl : len ≤ mem.length) (hw : len < 2 ^ 32)
    (hm : msgFrom mem len idx = encString s ++ rest) : Holds mem (refAt idx s) s := by
  refine ⟨str_deref hl hm hw, refAt_sz idx s, refAt_off idx s, (str_view hl hm).1, (str_view hl hm).2, ?_⟩
  have := congrArg List.length hm
  rw [msgFrom_length mem len idx hl, List.length_append, enc_length] at this; omega

/-- Bytes between two cursors. -/
theorem between {idx i : Nat} {a : Bytes} (hl : len ≤ mem.length) (hi : i ≤ len) (hii : idx ≤ i)
    (hm : msgFrom mem len idx = a ++ msgFrom mem len i) : (mem.drop idx).take (i - idx) = a ∧ a.length = i - idx := by
  have hlen := congrArg List.length hm
  rw [msgFrom_length mem len idx hl, List.length_append, msgFrom_length mem len i hl] at hlen
  have ha : a.length = i - idx := by omega
  refine ⟨?_, ha⟩
  have : (mem.drop idx).take (i - idx) = (msgFrom mem len idx).take (i - idx) := by
    unfold msgFrom
    rw [List.drop_take, List.take_take, Nat.min_eq_left (by omega)]
  rw [this, hm, ← ha]; simp

/-- The parsed certificate `c` of the memory `blob` (of claimed length `len`) describes the
certificate `s`. -/
structure Rep (alg : Alg) (blob : Bytes) (len : Nat) (c : Cert) (s : Spec.OsshCert.Cert) : Prop where
  wf : WellFormed alg s
  bytes : blob.take len = encode s
  typeId : c.typeId = certId alg
  baseTypeId : c.baseTypeId = baseId alg
  signed : c.signedLen = (body s).length
  signedLe : c.signedLen ≤ len
  nonce : Holds blob c.nonce s.nonce
  userKey : (blob.drop c.userKeyOff).take c.userKeySz = encStrings s.userKey
  userKeyLe : c.userKeyOff + c.userKeySz ≤ len
  serial : c.serial = s.serial
  certType : c.certType = s.certType
  keyId : Holds blob c.keyId s.keyId
  principals : Holds blob c.principals s.principals
  validAfter : c.validAfter = s.validAfter
  validBefore : c.validBefore = s.validBefore
  critOpts : Holds blob c.critOpts s.critOpts
  extensions : Holds blob c.extensions s.extensions
  caKey : Holds blob c.caKey s.caKey
  caKeyType : ∃ name rest, s.caKey = encString name ++ rest ∧ Holds (view blob c.caKey) c.caKeyType name
  signature : Holds blob c.signature s.signature

theorem msgFrom_zero (mem : Bytes) (len : Nat) : msgFrom mem len 0 = mem.take len := rfl

/-- What the parser accepts is an encoded certificate. -/
theorem parse_sound (typeId : Nat) (blob : Bytes) (len : Nat) (hl : len ≤ blob.length) (hw : len < 2 ^ 32)
    (c : Cert) (j : Nat) (h : osshCertParse typeId blob len = .ok c j) :
    ∃ alg s, typeId = certId alg ∧ Rep alg blob len c s := by
  unfold osshCertParse at h
  by_cases h0 : len = 0
  · rw [if_pos h0] at h; cases h
  rw [if_neg h0] at h
  by_cases hb : osshCertBaseId typeId = ID_UNKNOWN
  · rw [if_pos hb] at h; cases h
  rw [if_neg hb] at h
  obtain ⟨alg, rfl⟩ := cert_of_base hb
  rw [base_of_cert] at h
  obtain ⟨r, i, hr, h⟩ := andThen_ok.1 h
  obtain ⟨tn, rfl, rfl, _, htn, m0⟩ := str_inv hl hw hr
  have hlk : lookup blob (refAt 0 tn) = some (nameToId keyTable tn) := by
    unfold lookup; rw [str_deref hl m0 hw]; rfl
  rw [hlk] at h
  simp only at h
  by_cases hid : nameToId keyTable tn ≠ certId alg
  · rw [if_pos hid] at h; cases h
  rw [if_neg hid] at h
  have hid : tn ∈ certNames alg := (certName_iff alg tn).1 (by simpa using hid)
  obtain ⟨r, i, hr, h⟩ := andThen_ok.1 h
  obtain ⟨nonce, rfl, rfl, _, _, m1⟩ := str_inv hl hw hr
  obtain ⟨u, i, hr, h⟩ := andThen_ok.1 h
  obtain ⟨ks, hk1, hk2, hki, hke, m2⟩ := skipKey_inv hl hw hr
  have hbt := between hl hki (by omega) m2
  obtain ⟨serial, i3, hr, h⟩ := andThen_ok.1 h
  obtain ⟨rfl, _, hserial, m3⟩ := u64_inv hl hw hr
  obtain ⟨certType, i4, hr, h⟩ := andThen_ok.1 h
  obtain ⟨rfl, _, hct, m4⟩ := u32_inv hl hw hr
  obtain ⟨r, i5, hr, h⟩ := andThen_ok.1 h
  obtain ⟨keyId, rfl, rfl, _, _, m5⟩ := str_inv hl hw hr
  obtain ⟨r, i5, hr, h⟩ := andThen_ok.1 h
  obtain ⟨principals, rfl, rfl, _, _, m6⟩ := str_inv hl hw hr
  obtain ⟨va, i5, hr, h⟩ := andThen_ok.1 h
  obtain ⟨rfl, _, hva, m7⟩ := u64_inv hl hw hr
  obtain ⟨vb, i5, hr, h⟩ := andThen_ok.1 h
  obtain ⟨rfl, _, hvb, m8⟩ := u64_inv hl hw hr
  obtain ⟨r, i5, hr, h⟩ := andThen_ok.1 h
  obtain ⟨crit, rfl, rfl, _, _, m9⟩ := str_inv hl hw hr
  obtain ⟨r, i5, hr, h⟩ := andThen_ok.1 h
  obtain ⟨ext, rfl, rfl, _, _, m10⟩ := str_inv hl hw hr
  obtain ⟨r, i5, hr, h⟩ := andThen_ok.1 h
  obtain ⟨resv, _, rfl, _, _, m11⟩ := str_inv hl hw hr
  obtain ⟨r, i5, hr, h⟩ := andThen_ok.1 h
  obtain ⟨ca, rfl, rfl, hcale, _, m12⟩ := str_inv hl hw hr
  have hca := holds_at hl hw m12
  obtain ⟨rt, it, hr, h⟩ := andThen_ok.1 h
  rw [hca.sz] at hr
  obtain ⟨ct, rfl, _, _, hctl, m13⟩ := str_inv hca.len hca.small hr
  have hct' := holds_at hca.len hca.small m13
  have m13' := m13
  rw [← hca.sz, hca.msg] at m13'
  obtain ⟨r, i5, hr, h⟩ := andThen_ok.1 h
  obtain ⟨sig, rfl, rfl, _, _, m14⟩ := str_inv hl hw hr
  split at h
  · cases h
  · rename_i hend
    simp only [ne_eq, Decidable.not_not] at hend
    simp only [Res.ok.injEq] at h
    obtain ⟨rfl, _⟩ := h
    have hsub : sub32 i (0 + 4 + tn.length + 4 + nonce.length) = i - (0 + 4 + tn.length + 4 + nonce.length) := by
      unfold sub32; omega
    let s : Spec.OsshCert.Cert := ⟨tn, nonce, ks, serial, certType, keyId, principals, va, vb, crit, ext, resv, ca, sig⟩
    have hlast : msgFrom blob len len = [] := by
      apply List.eq_nil_of_length_eq_zero; rw [msgFrom_length _ _ _ hl]; omega
    have hbytes : blob.take len = encode s := by
      rw [← msgFrom_zero, m0, m1, m2, m3, m4, m5, m6, m7, m8, m9, m10, m11, m12, m14, hend, hlast]
      simp [encode, body, s]
    refine ⟨alg, s, rfl, ⟨⟨hid, hk1, hk2, hserial, hct, hva, hvb, ⟨_, _, m13', hctl⟩⟩, hbytes, rfl, rfl, ?_, ?_,
      holds_at hl hw m1, ?_, ?_, rfl, rfl, holds_at hl hw m5, holds_at hl hw m6, rfl, rfl, holds_at hl hw m9,
      holds_at hl hw m10, hca, ⟨_, _, m13', hct'⟩, holds_at hl hw m14⟩⟩
    · have := congrArg List.length hbytes
      rw [List.length_take, Nat.min_eq_left hl, encode, List.length_append, enc_length] at this
      show _ = (body s).length
      have e : s.signature.length = sig.length := rfl
      simp only at hend ⊢
      omega
    · exact hcale
    · simp only [hsub]; exact hbt.1
    · simp only [hsub]; omega

theorem andThen_right {α β : Type} {r : Res α} {f : α → Nat → Res β} (hr : r ≠ .ub)
    (h : ∀ v i, r = .ok v i → f v i ≠ .ub) : andThen r f ≠ .ub := by
  intro hh
  rcases andThen_ub.1 hh with h1 | ⟨v, i, h1, h2⟩
  · exact hr h1
  · exact h v i h1 h2

theorem parse_ne_ub (typeId : Nat) (blob : Bytes) (len : Nat) (hl : len ≤ blob.length) (hw : len < 2 ^ 32) :
    osshCertParse typeId blob len ≠ .ub := by
  unfold osshCertParse
  by_cases h0 : len = 0
  · rw [if_pos h0]; nofun
  rw [if_neg h0]
  by_cases hb : osshCertBaseId typeId = ID_UNKNOWN
  · rw [if_pos hb]; nofun
  rw [if_neg hb]
  refine andThen_right (str_ne_ub _ hl hw) fun r i hr => ?_
  obtain ⟨tn, rfl, rfl, _, htn, m0⟩ := str_inv hl hw hr
  have hlk : lookup blob (refAt 0 tn) = some (nameToId keyTable tn) := by
    unfold lookup; rw [str_deref hl m0 hw]; rfl
  rw [hlk]
  simp only
  split
  · nofun
  refine andThen_right (str_ne_ub _ hl hw) fun r i _ => ?_
  refine andThen_right (skipKey_ne_ub _ _ hl hw) fun r i _ => ?_
  refine andThen_right (u64_ne_ub _ hl hw) fun r i _ => ?_
  refine andThen_right (u32_ne_ub _ hl hw) fun r i _ => ?_
  refine andThen_right (str_ne_ub _ hl hw) fun r i _ => ?_
  refine andThen_right (str_ne_ub _ hl hw) fun r i _ => ?_
  refine andThen_right (u64_ne_ub _ hl hw) fun r i _ => ?_
  refine andThen_right (u64_ne_ub _ hl hw) fun r i _ => ?_
  refine andThen_right (str_ne_ub _ hl hw) fun r i _ => ?_
  refine andThen_right (str_ne_ub _ hl hw) fun r i _ => ?_
  refine andThen_right (str_ne_ub _ hl hw) fun r i _ => ?_
  refine andThen_right (str_ne_ub _ hl hw) fun r i hr => ?_
  obtain ⟨ca, rfl, rfl, _, _, m12⟩ := str_inv hl hw hr
  have hca := holds_at hl hw m12
  rw [hca.sz]
  refine andThen_right (str_ne_ub _ hca.len hca.small) fun r i _ => ?_
  refine andThen_right (str_ne_ub _ hl hw) fun r i _ => ?_
  split <;> nofun

/-- Every encoded certificate is parsed. -/
theorem parse_complete (alg : Alg) (s : Spec.OsshCert.Cert) (hwf : WellFormed alg s) (blob : Bytes) (len : Nat)
    (hl : len ≤ blob.length) (hw : len < 2 ^ 32) (hb : blob.take len = encode s) :
    ∃ c j, osshCertParse (certId alg) blob len = .ok c j := by
  have hlen : len = (encode s).length := by rw [← hb, List.length_take]; omega
  have h0 : len ≠ 0 := by rw [hlen]; simp [encode, body, encString, encUint32]
  unfold osshCertParse
  rw [if_neg h0, base_of_cert, if_neg (base_known alg)]
  have m0 : msgFrom blob len 0 = encode s := by rw [msgFrom_zero, hb]
  simp only [encode, body, List.append_assoc] at m0
  obtain ⟨g0, m1⟩ := str_fwd hl hw m0
  rw [andThen_of_ok g0]
  have hlk : lookup blob (refAt 0 s.typeName) = some (nameToId keyTable s.typeName) := by
    unfold lookup; rw [str_deref hl m0 hw]; rfl
  rw [hlk]
  simp only
  rw [if_neg (by simpa using (certName_iff alg _).2 hwf.name)]
  obtain ⟨g1, m2⟩ := str_fwd hl hw m1
  rw [andThen_of_ok g1]
  obtain ⟨g2, m3⟩ := skipKey_fwd hl hw hwf.parts hwf.rsa m2
  rw [andThen_of_ok g2]
  obtain ⟨g3, m4⟩ := u64_fwd hl hw hwf.serial m3
  simp only [andThen_of_ok g3]
  obtain ⟨g4, m5⟩ := u32_fwd hl hw hwf.certType m4
  rw [andThen_of_ok g4]
  obtain ⟨g5, m6⟩ := str_fwd hl hw m5
  rw [andThen_of_ok g5]
  obtain ⟨g6, m7⟩ := str_fwd hl hw m6
  rw [andThen_of_ok g6]
  obtain ⟨g7, m8⟩ := u64_fwd hl hw hwf.validAfter m7
  rw [andThen_of_ok g7]
  obtain ⟨g8, m9⟩ := u64_fwd hl hw hwf.validBefore m8
  rw [andThen_of_ok g8]
  obtain ⟨g9, m10⟩ := str_fwd hl hw m9
  rw [andThen_of_ok g9]
  obtain ⟨g10, m11⟩ := str_fwd hl hw m10
  rw [andThen_of_ok g10]
  obtain ⟨g11, m12⟩ := str_fwd hl hw m11
  rw [andThen_of_ok g11]
  obtain ⟨g12, m13⟩ := str_fwd hl hw m12
  rw [andThen_of_ok g12]
  have hca := holds_at hl hw m12
  obtain ⟨name, rest, hn, hnl⟩ := hwf.ca
  have mc := hca.msg
  rw [hca.sz] at mc ⊢
  obtain ⟨gc, _⟩ := str_fwd hca.len hca.small (mc.trans hn)
  rw [andThen_of_ok gc]
  have m13' := m13.trans (List.append_nil (encString s.signature)).symm
  obtain ⟨g13, m14⟩ := str_fwd hl hw m13'
  rw [andThen_of_ok g13]
  have hend := congrArg List.length m14
  rw [msgFrom_length _ _ _ hl] at hend
  have hend2 := congrArg List.length m13'
  rw [msgFrom_length _ _ _ hl, List.length_append, enc_length] at hend2
  simp only [List.length_nil] at hend hend2
  rw [if_neg (by omega)]
  exact ⟨_, _, rfl⟩

theorem encUint32_inj {a b : Nat} {r r' : Bytes} (ha : a < 2 ^ 32) (hb : b < 2 ^ 32)
    (h : encUint32 a ++ r = encUint32 b ++ r') : a = b ∧ r = r' := by
  have h1 := uint32_enc a ha r
  rw [h, uint32_enc b hb r'] at h1
  simp only [Option.some.injEq, Prod.mk.injEq] at h1
  exact ⟨h1.1.symm, h1.2.symm⟩

theorem encUint64_inj {a b : Nat} {r r' : Bytes} (ha : a < 2 ^ 64) (hb : b < 2 ^ 64)
    (h : encUint64 a ++ r = encUint64 b ++ r') : a = b ∧ r = r' := by
  unfold encUint64 at h
  rw [List.append_assoc, List.append_assoc] at h
  obtain ⟨h1, h⟩ := encUint32_inj (by omega) (by omega) h
  obtain ⟨h2, h⟩ := encUint32_inj (by omega) (by omega) h
  exact ⟨by omega, h⟩

theorem encStrings_inj {l l' : List Bytes} {r r' : Bytes} (hl : l.length = l'.length)
    (hs : (encStrings l ++ r).length < 2 ^ 32)
    (h : encStrings l ++ r = encStrings l' ++ r') : l = l' ∧ r = r' := by
  induction l generalizing l' with
  | nil =>
    cases l' with
    | nil => exact ⟨rfl, by simpa [encStrings] using h⟩
    | cons _ _ => simp at hl
  | cons a l ih =>
    cases l' with
    | nil => simp at hl
    | cons b l' =>
      have e1 : encStrings (a :: l) ++ r = encString a ++ (encStrings l ++ r) := by simp [encStrings]
      have e2 : encStrings (b :: l') ++ r' = encString b ++ (encStrings l' ++ r') := by simp [encStrings]
      have hs2 := hs
      rw [h, e2, List.length_append, enc_length] at hs2
      rw [e1, List.length_append, enc_length] at hs
      rw [e1, e2] at h
      obtain ⟨rfl, h3⟩ := encString_inj (by omega) (by omega) h
      obtain ⟨rfl, h4⟩ := ih (by simpa using hl) (by omega) h3
      exact ⟨rfl, h4⟩

theorem encString_inj' {s s' r r' : Bytes} (hs : (encString s ++ r).length < 2 ^ 32)
    (h : encString s ++ r = encString s' ++ r') : s = s' ∧ r = r' ∧ r.length < 2 ^ 32 := by
  have hs2 := hs
  rw [h, List.length_append, enc_length] at hs2
  rw [List.length_append, enc_length] at hs
  obtain ⟨h1, h2⟩ := encString_inj (by omega) (by omega) h
  exact ⟨h1, h2, by omega⟩

/-- A certificate is determined by its encoding. -/
theorem encode_inj {alg alg' : Alg} {s s' : Spec.OsshCert.Cert} (hwf : WellFormed alg s) (hwf' : WellFormed alg' s')
    (ha : alg = alg') (hl : (encode s).length < 2 ^ 32) (h : encode s = encode s') : s = s' := by
  subst ha
  simp only [encode, body, List.append_assoc] at h hl
  obtain ⟨h1, h, hl⟩ := encString_inj' hl h
  obtain ⟨h2, h, hl⟩ := encString_inj' hl h
  have hl2 := hl
  obtain ⟨h3, h⟩ := encStrings_inj (by rw [hwf.parts, hwf'.parts]) hl h
  rw [List.length_append] at hl2
  have hl := Nat.lt_of_le_of_lt (Nat.le_add_left _ _) hl2
  obtain ⟨h4, h⟩ := encUint64_inj hwf.serial hwf'.serial h
  rw [List.length_append] at hl
  have hl := Nat.lt_of_le_of_lt (Nat.le_add_left _ _) hl
  obtain ⟨h5, h⟩ := encUint32_inj hwf.certType hwf'.certType h
  rw [List.length_append] at hl
  have hl := Nat.lt_of_le_of_lt (Nat.le_add_left _ _) hl
  obtain ⟨h6, h, hl⟩ := encString_inj' hl h
  obtain ⟨h7, h, hl⟩ := encString_inj' hl h
  obtain ⟨h8, h⟩ := encUint64_inj hwf.validAfter hwf'.validAfter h
  rw [List.length_append] at hl
  have hl := Nat.lt_of_le_of_lt (Nat.le_add_left _ _) hl
  obtain ⟨h9, h⟩ := encUint64_inj hwf.validBefore hwf'.validBefore h
  rw [List.length_append] at hl
  have hl := Nat.lt_of_le_of_lt (Nat.le_add_left _ _) hl
  obtain ⟨h10, h, hl⟩ := encString_inj' hl h
  obtain ⟨h11, h, hl⟩ := encString_inj' hl h
  obtain ⟨h12, h, hl⟩ := encString_inj' hl h
  obtain ⟨h13, h, hl⟩ := encString_inj' hl h
  rw [← List.append_nil (encString s.signature), ← List.append_nil (encString s'.signature)] at h
  rw [← List.append_nil (encString s.signature)] at hl
  obtain ⟨h14, _⟩ := encString_inj' hl h
  cases s; cases s'
  simp only at *
  subst_vars
  rfl

end Proofs.Ossh
