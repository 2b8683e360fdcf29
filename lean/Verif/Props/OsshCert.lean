import Verif.Proofs.OsshAsk
import Verif.Props.Auth
/-!
# OpenSSH certificates as public keys of users
-/

namespace Props.OsshCert
open Wolf Wolf.Wire Wolf.NameList Wolf.OsshCert Spec.OsshCert Spec.Wire
open Wolf.UserAuth (Env Auth Ev)

/-! ## C83: parsing -/

/-- A blob offered under a certificate name is taken for a certificate exactly when it is the encoding of a well-formed
certificate of that family, to the last byte. -/
theorem C83_parse (alg : Alg) (n : Bytes) (hn : n ∈ certNames alg) (blob pad : Bytes) (hw : blob.length < 2 ^ 32) :
    (∃ c j, osshCertParse (nameToId keyTable n) (blob ++ pad) blob.length = .ok c j) ↔
      ∃ s, WellFormed alg s ∧ blob = encode s := by
  have hl : blob.length ≤ (blob ++ pad).length := by simp
  have ht : (blob ++ pad).take blob.length = blob := by simp
  rw [(Proofs.Ossh.certName_iff alg n).2 hn]
  constructor
  · rintro ⟨c, j, h⟩
    obtain ⟨alg', s, hid, hr⟩ := Proofs.Ossh.parse_sound _ _ _ hl hw c j h
    have : alg = alg' := by
      revert hid; cases alg <;> cases alg' <;> first | (intro _; rfl) | (intro h; revert h; decide)
    subst this
    exact ⟨s, hr.wf, by rw [← hr.bytes, ht]⟩
  · rintro ⟨s, hwf, he⟩
    exact Proofs.Ossh.parse_complete alg s hwf _ _ hl hw (by rw [ht, he])

/-- Whatever is accepted is read correctly: every field the parser reports is that of the certificate, and what it calls the
signed part is the encoding without the signature. -/
theorem C83_fields (id : Nat) (blob pad : Bytes) (hw : blob.length < 2 ^ 32) (c : Wolf.OsshCert.Cert) (j : Nat)
    (h : osshCertParse id (blob ++ pad) blob.length = .ok c j) :
    ∃ alg s, WellFormed alg s ∧ blob = encode s ∧ Parsed (blob ++ pad) c s := by
  have hl : blob.length ≤ (blob ++ pad).length := by simp
  have ht : (blob ++ pad).take blob.length = blob := by simp
  obtain ⟨alg, s, _, hr⟩ := Proofs.Ossh.parse_sound _ _ _ hl hw c j h
  refine ⟨alg, s, hr.wf, by rw [← hr.bytes, ht], ⟨?_, hr.nonce.deref, hr.userKey, hr.serial, hr.certType, hr.keyId.deref, hr.principals.deref,
    hr.validAfter, hr.validBefore, hr.critOpts.deref, hr.extensions.deref, hr.caKey.deref, hr.signature.deref⟩⟩
  have := hr.signedBytes hl
  unfold signedBytes at this
  split at this
  · exact Option.some.inj this
  · cases this

/-- No blob makes the parser read outside of it. -/
theorem C83_safe (id : Nat) (blob pad : Bytes) (hw : blob.length < 2 ^ 32) :
    osshCertParse id (blob ++ pad) blob.length ≠ .ub :=
  Proofs.Ossh.parse_ne_ub _ _ _ (by simp) hw

/-- A blob is the encoding of one certificate only. -/
theorem C83_unique (alg : Alg) (s s' : Spec.OsshCert.Cert) (h : WellFormed alg s) (h' : WellFormed alg s')
    (hl : (encode s).length < 2 ^ 32) (he : encode s = encode s') : s = s' :=
  Proofs.Ossh.encode_inj h h' rfl hl he

/-! ## C84: critical options -/

/-- The options of a certificate pass exactly when its critical options are `force-command` and `source-address`, each at most
once, in order, each with one non-empty string, and its extensions are pairs of strings; and then the restrictions reported are
those two values. No certificate makes the check read outside of the blob. -/
theorem C84_options (alg : Alg) (s : Spec.OsshCert.Cert) (pad : Bytes) (id : Nat) (hwf : WellFormed alg s)
    (hw : (encode s).length < 2 ^ 32) (c : Wolf.OsshCert.Cert) (j : Nat)
    (h : osshCertParse id (encode s ++ pad) (encode s).length = .ok c j) (R : Restrictions) :
    ((∃ i, osshCertCheckOptions (encode s ++ pad) c = .ok R i) ↔
      Pairs s.extensions ∧ ∃ opts, Understood s.critOpts opts ∧
        R.forceCommand = forced opts ∧ R.sourceAddress = sources opts) ∧
    osshCertCheckOptions (encode s ++ pad) c ≠ .ub := by
  have hl : (encode s).length ≤ (encode s ++ pad).length := by simp
  have ht : (encode s ++ pad).take (encode s).length = encode s := by simp
  obtain ⟨alg', s', hid, hr⟩ := Proofs.Ossh.parse_sound _ _ _ hl hw c j h
  have hb := hr.bytes
  rw [ht] at hb
  have ha : alg = alg' := by
    have h1 := hwf.name
    have h2 := hr.wf.name
    have h3 : s.typeName = s'.typeName := by
      have hw1 := hw
      rw [hb] at hw1
      simp only [encode, body, List.append_assoc] at hb hw hw1
      exact (Proofs.Ossh.encString_inj' hw hb).1
    rw [h3] at h1
    have e1 := (Proofs.Ossh.certName_iff alg _).2 h1
    have e2 := (Proofs.Ossh.certName_iff alg' _).2 h2
    rw [e1] at e2
    revert e2; cases alg <;> cases alg' <;> first | (intro _; rfl) | (intro h; revert h; decide)
  have hs := Proofs.Ossh.encode_inj hwf hr.wf ha hw hb
  subst hs
  refine ⟨?_, Proofs.Ossh.options_ne_ub hr.critOpts hr.extensions⟩
  rw [Proofs.Ossh.options_iff hr.critOpts hr.extensions R]
  refine and_congr_right (fun _ => exists_congr fun o => and_congr_right (fun _ => ?_))
  obtain ⟨a, b⟩ := R
  simp

/-! ## C85: which certificates are gone by -/

/-- A certificate offered as public key is passed to the application exactly when it is well formed, for users, signed by the
authority it names over all the rest of it, with critical options that are understood, and (if the request is signed) with a
signature algorithm that suits the certified key. The application is then asked about the plain key in it, and shown the
authority, the principals, the validity and the restrictions that are in it. -/
theorem C85_decision (K : Crypto) (alg : Alg) (n : Bytes) (hn : n ∈ certNames alg) (blob pad : Bytes) (hw : blob.length < 2 ^ 32)
    (sigAlgo : Option Bytes) (id : Nat) (sh : Shown) :
    certStep K (nameToId keyTable n) (blob ++ pad) blob.length sigAlgo = .accepted id sh ↔
      ∃ c opts, WellFormed alg c ∧ blob = encode c ∧ Acceptable (judge K) c opts ∧
        (∀ a, sigAlgo = some a → a ∈ sigNames alg) ∧
        shows alg c opts (sigAlgo.getD (keyName alg)) sh ∧ id = nameToId keyTable (sigAlgo.getD (keyName alg)) := by
  have hl : blob.length ≤ (blob ++ pad).length := by simp
  have ht : (blob ++ pad).take blob.length = blob := by simp
  rw [(Proofs.Ossh.certName_iff alg n).2 hn, Proofs.Ossh.step_iff K alg _ _ hl hw, ht]
  constructor
  · rintro ⟨c, opts, kt, h1, h2, h3, h4, h5⟩
    have h5 := (Proofs.Ossh.shownOf_shows _ _ _ _ _).1 h5
    refine ⟨c, opts, h1, h2, h3, ?_⟩
    cases sigAlgo with
    | none =>
      simp only [Proofs.Ossh.keyTypeOf, Option.some.injEq, Prod.mk.injEq] at h4
      refine ⟨nofun, ?_, ?_⟩
      · rw [← h4.2] at h5; exact h5
      · rw [← h4.1]; cases alg <;> decide +kernel
    | some a =>
      unfold Proofs.Ossh.keyTypeOf at h4
      simp only at h4
      split at h4
      · rename_i ha
        simp only [Option.some.injEq, Prod.mk.injEq] at h4
        refine ⟨by rintro _ ⟨⟩; exact ha, ?_, h4.1.symm⟩
        rw [← h4.2] at h5; exact h5
      · cases h4
  · rintro ⟨c, opts, h1, h2, h3, h4, h5, h6⟩
    refine ⟨c, opts, _, h1, h2, h3, ?_, (Proofs.Ossh.shownOf_shows _ _ _ _ _).2 h5⟩
    cases sigAlgo with
    | none =>
      simp only [Proofs.Ossh.keyTypeOf, Option.getD_none, h6, Option.some.injEq, Prod.mk.injEq, and_true]
      cases alg <;> decide +kernel
    | some a =>
      unfold Proofs.Ossh.keyTypeOf
      simp only
      rw [if_pos (h4 a rfl), h6]; rfl

/-- No certificate makes the decision read outside of the blob. -/
theorem C85_safe (K : Crypto) (id : Nat) (blob pad : Bytes) (hw : blob.length < 2 ^ 32) (sigAlgo : Option Bytes) :
    certStep K id (blob ++ pad) blob.length sigAlgo ≠ .ub :=
  Proofs.Ossh.step_ne_ub _ _ _ _ (by simp) hw _

/-- Whenever a request leads to a question about a key, it is the key in the request, or the request has a certificate to go
by, and the question is about the key it certifies, with what it says. In particular no callback ever sees the restrictions,
principals or authority of a certificate that was not signed as a whole by that authority. -/
theorem C85_asked (E : Env) (a a' : Auth) (payload pad : Bytes) (hw : payload.length < 2 ^ 32) (r : UserAuth.Ret) (j : Nat)
    (h : UserAuth.doUserAuthRequest E a (payload ++ pad) payload.length = .ret r j a')
    (user algo' key' sig : Bytes) (signed : Bool) (cert : Option Shown) (x : UserAuth.Answer)
    (hin : Ev.asked user (.publicKey algo' key' signed sig cert) x ∈ a'.log)
    (hnew : Ev.asked user (.publicKey algo' key' signed sig cert) x ∉ a.log) :
    ∃ service method flag algo key rest,
      payload = encString user ++ (encString service ++ (encString method ++
        (flag :: (encString algo ++ (encString key ++ rest))))) ∧
      Spec.Auth.asks (E.ossh.map judge) algo key algo' key' cert := by
  have hl : payload.length ≤ (payload ++ pad).length := by simp
  have e0 : Props.Wire.msgFrom (payload ++ pad) payload.length 0 = payload := by simp [Props.Wire.msgFrom]
  rcases UserAuth.request_pk hl hw ⟨_, _, _, _, _, _, _, rfl⟩ h hin with h | ⟨u, sv, m, f, al, k, rest, al', k', hs, sg, ct, x', he, hm, hask⟩
  · exact absurd h hnew
  · cases he
    rw [e0] at hm
    exact ⟨sv, m, f, al, k, rest, hm, hask⟩

/-- The signature of the authority is not pinned to one encoding: bytes after it are not looked at. -/
theorem C85_trailing_witness (valid : Check → List UInt8 → Bool) (c : Spec.OsshCert.Cert) (opts : List Option1) (t : Bytes)
    (h : Acceptable valid c opts) : Acceptable valid { c with signature := c.signature ++ t } opts := by
  obtain ⟨h1, ⟨chk, h2, h3⟩, h4, h5⟩ := h
  refine ⟨h1, ⟨chk, ?_, h3⟩, h4, h5⟩
  simp only
  generalize c.caKey = k at h2
  generalize c.signature = sg at h2
  cases h2 with
  | rsa256 e n s tk ts he hn => rw [List.append_assoc (encString _ ++ encString s)]; exact .rsa256 _ _ _ _ _ he hn
  | rsa512 e n s tk ts he hn => rw [List.append_assoc (encString _ ++ encString s)]; exact .rsa512 _ _ _ _ _ he hn
  | ecdsa256 q r s name tk ts tb hr hs =>
    rw [List.append_assoc (encString name ++ encString _)]; exact .ecdsa256 _ _ _ _ _ _ _ hr hs
  | ecdsa384 q r s name tk ts tb hr hs =>
    rw [List.append_assoc (encString name ++ encString _)]; exact .ecdsa384 _ _ _ _ _ _ _ hr hs
  | ecdsa521 q r s name tk ts tb hr hs =>
    rw [List.append_assoc (encString name ++ encString _)]; exact .ecdsa521 _ _ _ _ _ _ _ hr hs
  | ed25519 pub s name tk ts => rw [List.append_assoc (encString name ++ encString s)]; exact .ed25519 _ _ _ _ _

/-! ## A certificate -/

/-- An Ed25519 certificate for "bob" that forces "ls" and may be used from 10.0.0.0/8. -/
def demoCert : Spec.OsshCert.Cert where
  typeName := ascii "ssh-ed25519-cert-v01@openssh.com"
  nonce := [1, 2, 3]
  userKey := [[9, 9]]
  serial := 2 ^ 40 + 7
  certType := 1
  keyId := ascii "id"
  principals := encString (ascii "bob")
  validAfter := 5
  validBefore := 2 ^ 63
  critOpts := ([Option1.forceCommand (ascii "ls"), .sourceAddress (ascii "10.0.0.0/8")].map encOption).flatten
  extensions := encString (ascii "permit-pty") ++ encString []
  reserved := []
  caKey := encString (ascii "ssh-ed25519") ++ encString [7, 7]
  signature := encString (ascii "ssh-ed25519") ++ encString [8]

/-- A scheme whose signatures are right for the key 7,7 and a message that ends with the authority's key. -/
def demoCrypto : Crypto where
  ed25519 := fun p s m => p == [7, 7] && s == [8] && m == body demoCert
  rsa := fun _ _ _ _ _ => false
  ecdsa := fun _ _ _ _ _ => false

theorem demo_wf : WellFormed .ed25519 demoCert := by
  refine ⟨by decide +kernel, rfl, nofun, by decide +kernel, by decide +kernel, by decide +kernel, by decide +kernel, ascii "ssh-ed25519", encString [7, 7], rfl, by decide +kernel⟩

theorem demo_acceptable : Acceptable (judge demoCrypto) demoCert
    [.forceCommand (ascii "ls"), .sourceAddress (ascii "10.0.0.0/8")] := by
  refine ⟨rfl, ⟨.ed25519 [7, 7] [8], ?_, by decide +kernel⟩, ⟨rfl, ?_, ?_⟩, [(ascii "permit-pty", [])], by decide +kernel⟩
  · exact .ed25519 [7, 7] [8] (ascii "ssh-ed25519") [] []
  · refine ⟨?_, trivial⟩
    exact .inl (by decide +kernel)
  · decide +kernel

example : osshCertParse ID_OSSH_CERT_ED25519 (encode demoCert ++ [1]) (encode demoCert).length ≠ .ub ∧
    ∃ c j, osshCertParse ID_OSSH_CERT_ED25519 (encode demoCert ++ [1]) (encode demoCert).length = .ok c j ∧ c.serial = 2 ^ 40 + 7 :=
  ⟨C83_safe _ _ _ (by decide +kernel), by
    obtain ⟨c, j, h⟩ := (C83_parse .ed25519 (ascii "ssh-ed25519-cert-v01@openssh.com") (by decide +kernel) (encode demoCert) [1]
      (by decide +kernel)).2 ⟨demoCert, demo_wf, rfl⟩
    have e : nameToId keyTable (ascii "ssh-ed25519-cert-v01@openssh.com") = ID_OSSH_CERT_ED25519 := by decide +kernel
    rw [e] at h
    refine ⟨c, j, h, ?_⟩
    have h' : osshCertParse ID_OSSH_CERT_ED25519 (encode demoCert ++ [1]) (encode demoCert).length = .ok c j := h
    have : (match osshCertParse ID_OSSH_CERT_ED25519 (encode demoCert ++ [1]) (encode demoCert).length with
      | .ok c _ => c.serial | _ => 0) = 2 ^ 40 + 7 := by decide +kernel
    rw [h'] at this
    exact this⟩

/-- The decision on it: accepted with a suitable signature algorithm, with the restrictions; not with another algorithm, not as
a host certificate, and not with a byte of the options changed. -/
example : certStep demoCrypto ID_OSSH_CERT_ED25519 (encode demoCert) (encode demoCert).length (some (ascii "ssh-ed25519")) =
    .accepted ID_ED25519 ⟨ascii "ssh-ed25519", encString (ascii "ssh-ed25519") ++ encString [9, 9],
      encString (ascii "ssh-ed25519") ++ encString [7, 7], encString (ascii "bob"), 5, 2 ^ 63,
      ⟨some (ascii "ls"), some (ascii "10.0.0.0/8")⟩⟩ := by decide +kernel
example : certStep demoCrypto ID_OSSH_CERT_ED25519 (encode demoCert) (encode demoCert).length (some (ascii "rsa-sha2-256")) =
    .rejected := by decide +kernel
example : let c := { demoCert with certType := 2 }
    certStep demoCrypto ID_OSSH_CERT_ED25519 (encode c) (encode c).length none = .rejected := by decide +kernel
example : let c := { demoCert with critOpts := encOption (.forceCommand (ascii "sh")) }
    certStep demoCrypto ID_OSSH_CERT_ED25519 (encode c) (encode c).length none = .rejected := by decide +kernel

/-- A server that knows certificates and says yes to keys of the authority 7,7. -/
def demoCertEnv : Env :=
  { Props.Auth.demoEnv with
    table := ⟨ID_OSSH_CERT_ED25519, .key, ascii "ssh-ed25519-cert-v01@openssh.com"⟩ :: Props.Auth.demoEnv.table
    keyAlgos := [ID_OSSH_CERT_ED25519]
    ossh := some demoCrypto
    cb := some (fun _ q => match q with
      | .publicKey _ _ _ _ (some sh) =>
        if sh.caKey = encString (ascii "ssh-ed25519") ++ encString [7, 7] then .success else .other
      | _ => .other) }

/-- A signed request of "bob" with that certificate. -/
def demoCertRequest : Bytes :=
  encString (ascii "bob") ++ (encString (ascii "ssh-connection") ++ (encString (ascii "publickey") ++
    (1 :: (encString (ascii "ssh-ed25519-cert-v01@openssh.com") ++ (encString (encode demoCert) ++
      encString (encString (ascii "ssh-ed25519") ++ encString [3]))))))

/-- It authenticates, after the question `C85_asked` speaks about. -/
example : (match UserAuth.doUserAuthRequest demoCertEnv (Wolf.Session.Srv.init 3 [7]).a demoCertRequest demoCertRequest.length with
    | .ret r _ a => r == none && a.clientState == UserAuth.CLIENT_USERAUTH_DONE &&
        (match a.log with
          | .asked u (.publicKey al k true _ (some sh)) .success :: _ =>
            u == ascii "bob" && al == ascii "ssh-ed25519" && k == plainKey .ed25519 demoCert &&
              sh.restrictions == ⟨some (ascii "ls"), some (ascii "10.0.0.0/8")⟩
          | _ => false)
    | .ub => false) = true := by decide +kernel

end Props.OsshCert
