import Verif.Proofs.ClientAuth
/-! The public key request of a client: its algorithm and its signature. -/

namespace Proofs.ClientAuth
open Wolf Wolf.Wire Wolf.NameList Wolf.OsshCert Wolf.ClientAuth Spec.Wire Spec.ClientAuth
open Wolf.UserAuth (Ret queued ID_SERVICE_CONNECTION ID_USERAUTH_PASSWORD ID_USERAUTH_KEYBOARD ID_USERAUTH_PUBLICKEY)

/-- The client's list stands for the names `algs`. -/
def Known (peer : List Nat) (algs : List Bytes) : Prop :=
  peer = keep (algs.map (nameToId table)) ∨ (peer = [] ∧ ∀ n ∈ algs, nameToId table n ∉ cannedKeyAlgoClient)

theorem known_find {peer : List Nat} {algs : List Bytes} (h : Known peer algs) (p : Nat → Bool)
    (hp : ∀ x, p x = true → x ∈ cannedKeyAlgoClient) :
    peer.find? p = (algs.find? fun n => p (nameToId table n)).map (nameToId table) := by
  rcases h with rfl | ⟨rfl, h⟩
  · rw [keep_find _ _ ?_, List.find?_map]
    · rfl
    · cases hu : p ID_UNKNOWN with
      | false => rfl
      | true => exact absurd (hp _ hu) (by decide)
  · have : (algs.find? fun n => p (nameToId table n)) = none := by
      rw [List.find?_eq_none]
      intro n hn hpn
      exact h n hn (hp _ hpn)
    rw [this]; rfl

theorem known_mem {peer : List Nat} {algs : List Bytes} (h : Known peer algs) {x : Nat} (hx : x ∈ cannedKeyAlgoClient) :
    x ∈ peer ↔ ∃ n ∈ algs, nameToId table n = x := by
  have hf := known_find h (fun y => y == x) (by intro y hy; rw [beq_iff_eq] at hy; rw [hy]; exact hx)
  constructor
  · intro hm
    cases hc : algs.find? fun n => nameToId table n == x with
    | none =>
      rw [hc] at hf
      simp only [Option.map_none, List.find?_eq_none] at hf
      exact absurd (by simp) (hf x hm)
    | some n =>
      have h1 := List.mem_of_find?_eq_some hc
      have h2 := List.find?_some hc
      exact ⟨n, h1, by simpa using h2⟩
  · rintro ⟨n, hn, he⟩
    cases hc : peer.find? fun y => y == x with
    | none =>
      rw [hc] at hf
      have := hf.symm
      simp only [Option.map_eq_none_iff, List.find?_eq_none] at this
      exact absurd (by simpa using he) (this n hn)
    | some y =>
      have h1 := List.mem_of_find?_eq_some hc
      have h2 := List.find?_some hc
      simp only [beq_iff_eq] at h2
      rw [← h2]; exact h1

theorem mid_one {peer : List Nat} {algs : List Bytes} (h : Known peer algs) {x : Nat} (hx : x ∈ cannedKeyAlgoClient) :
    matchIdLists .client [x] peer = if (∃ n ∈ algs, nameToId table n = x) then x else ID_UNKNOWN := by
  rw [match_client _ _ (by simp)]
  have hm := known_mem h hx
  by_cases he : ∃ n ∈ algs, nameToId table n = x
  · rw [if_pos he]
    have := hm.2 he
    cases hc : peer.find? fun y => [x].contains y with
    | none =>
      rw [List.find?_eq_none] at hc
      exact absurd (by simp) (hc x this)
    | some y =>
      have h2 := List.find?_some hc
      simpa using h2
  · rw [if_neg he]
    have : (peer.find? fun y => [x].contains y) = none := by
      rw [List.find?_eq_none]
      intro y hy hc
      simp only [List.contains_cons, List.contains_nil, Bool.or_false, beq_iff_eq] at hc
      subst hc
      exact he (hm.1 hy)
    rw [this]; rfl

/-- What the choice says of the client's variables. -/
structure Fam (kt : Bytes) (peer : List Nat) (alg sn : Bytes) (x : Nat) : Prop where
  ne : matchIdLists .client (algosOf (nameToId table kt)) peer ≠ ID_UNKNOWN
  extra : sigExtra (nameToId table kt) = some x
  name : sigNameOf peer (nameToId table kt) (matchIdLists .client (algosOf (nameToId table kt)) peer) = alg
  fam : (x = 12 ∧ sn ∈ rsa ∧ sn.length ≤ kt.length + 5 ∧ (matchIdLists .client (algosOf (nameToId table kt)) peer = nameToId table sn ∨
          (matchIdLists .client (algosOf (nameToId table kt)) peer = ID_OSSH_CERT_RSA ∧ osshRsaCertSigId peer = nameToId table sn))) ∨
        (x = 20 ∧ alg = kt ∧ sn.length ≤ kt.length ∧ matchIdLists .client (algosOf (nameToId table kt)) peer = nameToId table kt ∧
          ((sn = text "ecdsa-sha2-nistp256" ∧
            (nameToId table kt = ID_ECDSA_SHA2_NISTP256 ∨ nameToId table kt = ID_OSSH_CERT_ECDSA_SHA2_NISTP256)) ∨
           (sn = text "ecdsa-sha2-nistp384" ∧
            (nameToId table kt = ID_ECDSA_SHA2_NISTP384 ∨ nameToId table kt = ID_OSSH_CERT_ECDSA_SHA2_NISTP384)) ∨
           (sn = text "ecdsa-sha2-nistp521" ∧
            (nameToId table kt = ID_ECDSA_SHA2_NISTP521 ∨ nameToId table kt = ID_OSSH_CERT_ECDSA_SHA2_NISTP521)))) ∨
        (x = 12 ∧ alg = kt ∧ sn.length ≤ kt.length ∧ matchIdLists .client (algosOf (nameToId table kt)) peer = nameToId table kt ∧
          sn = text "ssh-ed25519" ∧ (nameToId table kt = ID_ED25519 ∨ nameToId table kt = ID_OSSH_CERT_ED25519))

/-- A key type that is one of the names. -/
theorem mid_self {peer : List Nat} {algs : List Bytes} (hk : Known peer algs) {x : Nat} {kt : Bytes} (hx : x ∈ cannedKeyAlgoClient)
    (h1 : ∀ n, nameToId table n = x ↔ n = kt) :
    matchIdLists .client [x] peer = if kt ∈ algs then x else ID_UNKNOWN := by
  rw [mid_one hk hx]
  by_cases hm : kt ∈ algs
  · rw [if_pos hm, if_pos ⟨kt, hm, (h1 kt).2 rfl⟩]
  · rw [if_neg hm, if_neg]
    rintro ⟨n, hn, he⟩
    exact hm ((h1 n).1 he ▸ hn)

/-- The choice, for a plain key type or its certificate. -/
theorem choice_self {peer : List Nat} {algs : List Bytes} (hk : Known peer algs) {kt sn : Bytes} {x y : Nat}
    (hch : choice kt algs = if kt ∈ algs then some (kt, sn) else none)
    (h1 : ∀ n, nameToId table n = x ↔ n = kt) (hx : x ∈ cannedKeyAlgoClient) (hal : algosOf x = [x]) (hu : x ≠ ID_UNKNOWN)
    (hex : sigExtra x = some y) (hnm : sigNameOf peer x x = kt)
    (hf : (y = 20 ∧ sn.length ≤ kt.length ∧
          ((sn = text "ecdsa-sha2-nistp256" ∧ (x = ID_ECDSA_SHA2_NISTP256 ∨ x = ID_OSSH_CERT_ECDSA_SHA2_NISTP256)) ∨
           (sn = text "ecdsa-sha2-nistp384" ∧ (x = ID_ECDSA_SHA2_NISTP384 ∨ x = ID_OSSH_CERT_ECDSA_SHA2_NISTP384)) ∨
           (sn = text "ecdsa-sha2-nistp521" ∧ (x = ID_ECDSA_SHA2_NISTP521 ∨ x = ID_OSSH_CERT_ECDSA_SHA2_NISTP521)))) ∨
        (y = 12 ∧ sn.length ≤ kt.length ∧ sn = text "ssh-ed25519" ∧ (x = ID_ED25519 ∨ x = ID_OSSH_CERT_ED25519))) :
    (∃ alg sn x, choice kt algs = some (alg, sn) ∧ Fam kt peer alg sn x) ∨
    (choice kt algs = none ∧ (matchIdLists .client (algosOf (nameToId table kt)) peer = ID_UNKNOWN ∨ sigExtra (nameToId table kt) = none)) := by
  have hid : nameToId table kt = x := (h1 kt).2 rfl
  have hm := mid_self hk hx h1
  by_cases hin : kt ∈ algs
  · left
    rw [if_pos hin] at hm hch
    refine ⟨kt, sn, y, hch, ?_, ?_, ?_, ?_⟩
    · rw [hid, hal, hm]; exact hu
    · rw [hid]; exact hex
    · rw [hid, hal, hm]; exact hnm
    · rw [hid, hal, hm]
      rcases hf with ⟨h1, h2, h3⟩ | ⟨h1, h2, h3⟩
      · exact .inr (.inl ⟨h1, rfl, h2, rfl, h3⟩)
      · exact .inr (.inr ⟨h1, rfl, h2, rfl, h3⟩)
  · right
    rw [if_neg hin] at hm hch
    exact ⟨hch, .inl (by rw [hid, hal, hm])⟩

theorem rsa_find {peer : List Nat} {algs : List Bytes} (hk : Known peer algs) :
    matchIdLists .client [ID_RSA_SHA2_512, ID_RSA_SHA2_256] peer =
      ((algs.find? fun n => rsa.contains n).map (nameToId table)).getD ID_UNKNOWN := by
  rw [match_client _ _ (by simp), known_find hk]
  · congr 3
    funext n
    have h1 := id_512 n
    have h2 := id_256 n
    rw [Bool.eq_iff_iff]
    simp only [List.contains_cons, List.contains_nil, Bool.or_false, Bool.or_eq_true, beq_iff_eq, rsa, h1, h2]
  · intro x hx
    simp only [List.contains_cons, List.contains_nil, Bool.or_false, Bool.or_eq_true, beq_iff_eq] at hx
    rcases hx with rfl | rfl <;> decide

theorem choice_cases {peer : List Nat} {algs : List Bytes} (hk : Known peer algs) (kt : Bytes) :
    (∃ alg sn x, choice kt algs = some (alg, sn) ∧ Fam kt peer alg sn x) ∨
    (choice kt algs = none ∧ (matchIdLists .client (algosOf (nameToId table kt)) peer = ID_UNKNOWN ∨ sigExtra (nameToId table kt) = none)) := by
  by_cases h1 : kt = text "ssh-rsa"
  · subst h1
    have hid : nameToId table (text "ssh-rsa") = ID_SSH_RSA := (id_rsa _).2 rfl
    have hal : algosOf ID_SSH_RSA = [ID_RSA_SHA2_512, ID_RSA_SHA2_256] := by decide
    have hch : choice (text "ssh-rsa") algs = (algs.find? fun n => rsa.contains n).map fun n => (n, n) := if_pos rfl
    have hm := rsa_find hk
    cases hf : algs.find? fun n => rsa.contains n with
    | none =>
      rw [hf] at hm hch
      exact .inr ⟨hch, .inl (by rw [hid, hal]; exact hm)⟩
    | some n =>
      rw [hf] at hm hch
      have hn : n ∈ rsa := by have := List.find?_some hf; simpa using this
      simp only [Option.map_some, Option.getD_some] at hm hch
      left
      refine ⟨n, n, 12, hch, ?_, by rw [hid]; rfl, ?_, ?_⟩
      · rw [hid, hal, hm]
        simp only [rsa, List.mem_cons, List.not_mem_nil, or_false] at hn
        rcases hn with rfl | rfl
        · rw [(id_512 _).2 rfl]; decide
        · rw [(id_256 _).2 rfl]; decide
      · rw [hid, hal, hm]
        simp only [rsa, List.mem_cons, List.not_mem_nil, or_false] at hn
        rw [sigNameOf, if_neg (by decide)]
        rcases hn with rfl | rfl
        · rw [(id_512 _).2 rfl]; decide +kernel
        · rw [(id_256 _).2 rfl]; decide +kernel
      · rw [hid, hal, hm]
        refine .inl ⟨rfl, hn, ?_, .inl rfl⟩
        simp only [rsa, List.mem_cons, List.not_mem_nil, or_false] at hn
        rcases hn with rfl | rfl <;> decide
  by_cases h2 : kt ∈ rsaCerts
  · have hid : nameToId table kt = ID_OSSH_CERT_RSA := (id_crsa _).2 h2
    have hal : algosOf ID_OSSH_CERT_RSA = [ID_OSSH_CERT_RSA] := by decide
    have hm := mid_one hk (x := ID_OSSH_CERT_RSA) (by decide)
    have h512 := known_mem hk (x := ID_RSA_SHA2_512) (by decide)
    have hch : choice kt algs = if (algs.any fun n => rsaCerts.contains n) = true then
      some (certOf (if text "rsa-sha2-512" ∈ algs then text "rsa-sha2-512" else text "rsa-sha2-256"),
        if text "rsa-sha2-512" ∈ algs then text "rsa-sha2-512" else text "rsa-sha2-256") else none := by
      unfold choice; rw [if_neg h1, if_pos h2]
    have hany : (algs.any fun n => rsaCerts.contains n) = true ↔ ∃ n ∈ algs, nameToId table n = ID_OSSH_CERT_RSA := by
      simp only [List.any_eq_true, List.contains_iff_mem, id_crsa]
    have hos : osshRsaCertSigId peer = if text "rsa-sha2-512" ∈ algs then ID_RSA_SHA2_512 else ID_RSA_SHA2_256 := by
      unfold osshRsaCertSigId
      by_cases hb : text "rsa-sha2-512" ∈ algs
      · rw [if_pos hb, if_pos (h512.2 ⟨_, hb, (id_512 _).2 rfl⟩)]
      · rw [if_neg hb, if_neg]
        intro hc
        obtain ⟨n, hn, he⟩ := h512.1 hc
        exact hb ((id_512 n).1 he ▸ hn)
    have hlen : (text "rsa-sha2-512").length ≤ kt.length + 5 ∧ (text "rsa-sha2-256").length ≤ kt.length + 5 := by
      simp only [rsaCerts, rsa, List.map_cons, List.map_nil, List.mem_cons, List.not_mem_nil, or_false] at h2
      rcases h2 with rfl | rfl | rfl <;> decide
    by_cases he : ∃ n ∈ algs, nameToId table n = ID_OSSH_CERT_RSA
    · rw [if_pos he] at hm
      rw [if_pos (hany.2 he)] at hch
      left
      refine ⟨_, _, 12, hch, by rw [hid, hal, hm]; decide, by rw [hid]; rfl, ?_, ?_⟩
      · rw [hid, hal, hm, sigNameOf, if_pos rfl, hos]
        by_cases hb : text "rsa-sha2-512" ∈ algs
        · rw [if_pos hb, if_pos hb, if_pos rfl]; decide
        · rw [if_neg hb, if_neg hb, if_neg (by decide)]; decide
      · rw [hid, hal, hm]
        refine .inl ⟨rfl, ?_, ?_, .inr ⟨rfl, ?_⟩⟩
        · by_cases hb : text "rsa-sha2-512" ∈ algs
          · rw [if_pos hb]; decide
          · rw [if_neg hb]; decide
        · by_cases hb : text "rsa-sha2-512" ∈ algs
          · rw [if_pos hb]; exact hlen.1
          · rw [if_neg hb]; exact hlen.2
        · rw [hos]
          by_cases hb : text "rsa-sha2-512" ∈ algs
          · rw [if_pos hb, if_pos hb, (id_512 _).2 rfl]
          · rw [if_neg hb, if_neg hb, (id_256 _).2 rfl]
    · rw [if_neg he] at hm
      rw [if_neg (fun h => he (hany.1 h))] at hch
      exact .inr ⟨hch, .inl (by rw [hid, hal, hm])⟩
  by_cases h3 : kt ∈ plain
  · have hch : choice kt algs = if kt ∈ algs then some (kt, kt) else none := by
      unfold choice; rw [if_neg h1, if_neg h2, if_pos h3]
    simp only [plain, List.mem_cons, List.not_mem_nil, or_false] at h3
    rcases h3 with rfl | rfl | rfl | rfl
    · exact choice_self hk hch id_p256 (by decide) (by decide) (by decide) rfl (by rw [sigNameOf, if_neg (by decide)]; decide +kernel)
        (.inl ⟨rfl, Nat.le_refl _, .inl ⟨rfl, .inl rfl⟩⟩)
    · exact choice_self hk hch id_p384 (by decide) (by decide) (by decide) rfl (by rw [sigNameOf, if_neg (by decide)]; decide +kernel)
        (.inl ⟨rfl, Nat.le_refl _, .inr (.inl ⟨rfl, .inl rfl⟩)⟩)
    · exact choice_self hk hch id_p521 (by decide) (by decide) (by decide) rfl (by rw [sigNameOf, if_neg (by decide)]; decide +kernel)
        (.inl ⟨rfl, Nat.le_refl _, .inr (.inr ⟨rfl, .inl rfl⟩)⟩)
    · exact choice_self hk hch id_ed (by decide) (by decide) (by decide) rfl (by rw [sigNameOf, if_neg (by decide)]; decide +kernel)
        (.inr ⟨rfl, Nat.le_refl _, rfl, .inl rfl⟩)
  have hch : choice kt algs = match plain.find? fun t => certOf t = kt with
      | some t => if kt ∈ algs then some (kt, t) else none
      | none => none := by
    unfold choice; rw [if_neg h1, if_neg h2, if_neg h3]; cases plain.find? fun t => certOf t = kt <;> rfl
  by_cases c1 : kt = certOf (text "ecdsa-sha2-nistp256")
  · subst c1
    exact choice_self hk hch id_c256 (by decide) (by decide) (by decide) rfl (by rw [sigNameOf, if_neg (by decide)]; decide +kernel)
      (.inl ⟨rfl, by decide, .inl ⟨rfl, .inr rfl⟩⟩)
  by_cases c2 : kt = certOf (text "ecdsa-sha2-nistp384")
  · subst c2
    exact choice_self hk hch id_c384 (by decide) (by decide) (by decide) rfl (by rw [sigNameOf, if_neg (by decide)]; decide +kernel)
      (.inl ⟨rfl, by decide, .inr (.inl ⟨rfl, .inr rfl⟩)⟩)
  by_cases c3 : kt = certOf (text "ecdsa-sha2-nistp521")
  · subst c3
    exact choice_self hk hch id_c521 (by decide) (by decide) (by decide) rfl (by rw [sigNameOf, if_neg (by decide)]; decide +kernel)
      (.inl ⟨rfl, by decide, .inr (.inr ⟨rfl, .inr rfl⟩)⟩)
  by_cases c4 : kt = certOf (text "ssh-ed25519")
  · subst c4
    exact choice_self hk hch id_ced (by decide) (by decide) (by decide) rfl (by rw [sigNameOf, if_neg (by decide)]; decide +kernel)
      (.inr ⟨rfl, by decide, rfl, .inr rfl⟩)
  right
  have hfn : (plain.find? fun t => certOf t = kt) = none := by
    rw [List.find?_eq_none]
    intro t ht hc
    simp only [plain, List.mem_cons, List.not_mem_nil, or_false] at ht
    simp only [decide_eq_true_eq] at hc
    rcases ht with rfl | rfl | rfl | rfl
    · exact c1 hc.symm
    · exact c2 hc.symm
    · exact c3 hc.symm
    · exact c4 hc.symm
  rw [hfn] at hch
  refine ⟨hch, .inr ?_⟩
  simp only [plain, List.mem_cons, List.not_mem_nil, or_false, not_or] at h3
  unfold sigExtra
  rw [if_neg, if_neg, if_neg]
  · rintro (h | h)
    · exact h3.2.2.2 ((id_ed _).1 h)
    · exact c4 ((id_ced _).1 h)
  · rintro (h | h | h | h | h | h)
    · exact h3.1 ((id_p256 _).1 h)
    · exact h3.2.1 ((id_p384 _).1 h)
    · exact h3.2.2.1 ((id_p521 _).1 h)
    · exact c1 ((id_c256 _).1 h)
    · exact c2 ((id_c384 _).1 h)
    · exact c3 ((id_c521 _).1 h)
  · rintro (h | h)
    · exact h1 ((id_rsa _).1 h)
    · exact h2 ((id_crsa _).1 h)

/-! ## The signature -/

theorem signPad_eq (n : Bytes) : Gex.signPad n ++ n = unsigned n := by
  have hb : ∀ b : UInt8, ((b &&& 0x80) ≠ 0) = (128 ≤ b.toNat) := by
    intro b
    have : ∀ k : Fin 256, ((UInt8.ofNat k.val &&& 0x80) ≠ 0) = (128 ≤ (UInt8.ofNat k.val).toNat) := by
      intro k
      apply propext
      revert k
      decide +kernel
    have h := this ⟨b.toNat, b.toNat_lt⟩
    simpa using h
  unfold Gex.signPad unsigned
  have e : n.getD 0 0 = n.headD 0 := by cases n <;> rfl
  rw [e]
  by_cases h : 128 ≤ (n.headD 0).toNat
  · rw [if_pos h, if_pos (by rw [hb]; exact h)]; rfl
  · rw [if_neg h, if_neg (by rw [hb]; exact h)]; rfl

/-- The fields of a public key request, up to the signature. -/
def fields (alg blob : Bytes) : Bytes := [1] ++ encString alg ++ encString blob

theorem sigOne_eq (name sig : Bytes) (n : Nat) (h : sig.length = n) :
    c32toa (n + name.length + 4 * 2) ++ c32toa name.length ++ name ++ c32toa n ++ sig = encString (sigOne name sig) := by
  subst h
  simp only [encString, sigOne, c32toa_eq, List.append_assoc, List.length_append]
  congr 2
  simp [encUint32]; omega

theorem build_rsa (s : Cl) (o : Offer) (k : KeySig) (msg : Bytes) {sn : Bytes} (hh : k.hasSig = true) (hsn : sn ∈ rsa)
    (hk : k.sigId = nameToId table sn ∨ (k.sigId = ID_OSSH_CERT_RSA ∧ osshRsaCertSigId s.peerSigId = nameToId table sn)) :
    buildPublicKey s o k msg =
      match o.sign (nameToId table sn) (encString s.sessionId ++ (msg ++ fields k.sigName o.blob)) with
      | .error e => .error e
      | .ok sig => if sig.length ≠ k.sigSz ∨ sig.length = 0 then .error .rsaE
        else .ok (fields k.sigName o.blob ++ encString (sigOne sn sig)) := by
  have hid : (sn = text "rsa-sha2-512" ∧ nameToId table sn = ID_RSA_SHA2_512) ∨ (sn = text "rsa-sha2-256" ∧ nameToId table sn = ID_RSA_SHA2_256) := by
    simp only [rsa, List.mem_cons, List.not_mem_nil, or_false] at hsn
    rcases hsn with rfl | rfl
    · exact .inl ⟨rfl, (id_512 _).2 rfl⟩
    · exact .inr ⟨rfl, (id_256 _).2 rfl⟩
  have hfm : k.sigId = ID_SSH_RSA ∨ k.sigId = ID_RSA_SHA2_256 ∨ k.sigId = ID_RSA_SHA2_512 ∨ k.sigId = ID_OSSH_CERT_RSA := by
    rcases hk with hk | hk
    · rcases hid with h | h <;> rw [hk, h.2] <;> simp
    · exact .inr (.inr (.inr hk.1))
  unfold buildPublicKey
  rw [if_neg (by rw [hh]; simp), if_pos hfm]
  have heff : (if k.sigId = ID_OSSH_CERT_RSA then osshRsaCertSigId s.peerSigId else k.sigId) = nameToId table sn := by
    rcases hk with hk | hk
    · rw [if_neg (by rcases hid with h | h <;> rw [hk, h.2] <;> decide), hk]
    · rw [if_pos hk.1, hk.2]
  have hnm : (if nameToId table sn = ID_RSA_SHA2_256 then some (asc "rsa-sha2-256")
         else if nameToId table sn = ID_RSA_SHA2_512 then some (asc "rsa-sha2-512")
         else if nameToId table sn = ID_SSH_RSA then some (asc "ssh-rsa") else none) = some sn := by
    rcases hid with ⟨h1, h2⟩ | ⟨h1, h2⟩
    · rw [h2, if_neg (by decide), if_pos rfl, h1]; rfl
    · rw [h2, if_pos rfl, h1]; rfl
  simp only [buildRsa, heff, hnm, str_eq, checkData, c32toa_eq s.sessionId.length]
  have e1 : encUint32 s.sessionId.length ++ s.sessionId ++ (msg ++ ([1] ++ encString k.sigName ++ encString o.blob)) =
      encString s.sessionId ++ (msg ++ fields k.sigName o.blob) := rfl
  rw [e1]
  cases o.sign (nameToId table sn) (encString s.sessionId ++ (msg ++ fields k.sigName o.blob)) with
  | error e => rfl
  | ok sig =>
    simp only
    by_cases hb : sig.length ≠ k.sigSz ∨ sig.length = 0
    · rw [if_pos hb, if_pos hb]
    · rw [if_neg hb, if_neg hb]
      simp only [not_or, Decidable.not_not] at hb
      simp only
      rw [sigOne_eq sn sig k.sigSz hb.1]
      rfl

theorem build_ecc (s : Cl) (o : Offer) (k : KeySig) (msg : Bytes) {sn : Bytes} (hh : k.hasSig = true)
    (hk : (sn = text "ecdsa-sha2-nistp256" ∧ (k.sigId = ID_ECDSA_SHA2_NISTP256 ∨ k.sigId = ID_OSSH_CERT_ECDSA_SHA2_NISTP256)) ∨
           (sn = text "ecdsa-sha2-nistp384" ∧ (k.sigId = ID_ECDSA_SHA2_NISTP384 ∨ k.sigId = ID_OSSH_CERT_ECDSA_SHA2_NISTP384)) ∨
           (sn = text "ecdsa-sha2-nistp521" ∧ (k.sigId = ID_ECDSA_SHA2_NISTP521 ∨ k.sigId = ID_OSSH_CERT_ECDSA_SHA2_NISTP521))) :
    buildPublicKey s o k msg =
      match o.signRs k.sigId (encString s.sessionId ++ (msg ++ fields o.type o.blob)) with
      | .error e => .error e
      | .ok (r, s') => .ok (fields o.type o.blob ++ encString (sigTwo sn r s')) := by
  have hnm : (if k.sigId = ID_ECDSA_SHA2_NISTP256 ∨ k.sigId = ID_OSSH_CERT_ECDSA_SHA2_NISTP256 then some (asc "ecdsa-sha2-nistp256")
           else if k.sigId = ID_ECDSA_SHA2_NISTP384 ∨ k.sigId = ID_OSSH_CERT_ECDSA_SHA2_NISTP384 then
             some (asc "ecdsa-sha2-nistp384")
           else if k.sigId = ID_ECDSA_SHA2_NISTP521 ∨ k.sigId = ID_OSSH_CERT_ECDSA_SHA2_NISTP521 then
             some (asc "ecdsa-sha2-nistp521")
           else none) = some sn := by
    rcases hk with ⟨h1, h2⟩ | ⟨h1, h2⟩ | ⟨h1, h2⟩
    · rw [if_pos h2, h1]; rfl
    · rw [if_neg (by rcases h2 with h2 | h2 <;> rw [h2] <;> decide), if_pos h2, h1]; rfl
    · rw [if_neg (by rcases h2 with h2 | h2 <;> rw [h2] <;> decide), if_neg (by rcases h2 with h2 | h2 <;> rw [h2] <;> decide), if_pos h2, h1]; rfl
  unfold buildPublicKey
  rw [if_neg (by rw [hh]; simp), if_neg, if_pos]
  rotate_left
  · rcases hk with ⟨h1, h2⟩ | ⟨h1, h2⟩ | ⟨h1, h2⟩ <;> rcases h2 with h2 | h2 <;> rw [h2] <;> decide
  · rcases hk with ⟨h1, h2⟩ | ⟨h1, h2⟩ | ⟨h1, h2⟩ <;> rcases h2 with h2 | h2 <;> rw [h2] <;> decide
  simp only [buildEcc, hnm, str_eq, checkData, c32toa_eq s.sessionId.length]
  have e1 : encUint32 s.sessionId.length ++ s.sessionId ++ (msg ++ ([1] ++ encString o.type ++ encString o.blob)) =
      encString s.sessionId ++ (msg ++ fields o.type o.blob) := rfl
  rw [e1]
  cases o.signRs k.sigId (encString s.sessionId ++ (msg ++ fields o.type o.blob)) with
  | error e => rfl
  | ok rs =>
    obtain ⟨r, s'⟩ := rs
    simp only
    congr 1
    have hr := signPad_eq r
    have hs := signPad_eq s'
    have lr : (unsigned r).length = r.length + (Gex.signPad r).length := by rw [← hr, List.length_append]; omega
    have ls : (unsigned s').length = s'.length + (Gex.signPad s').length := by rw [← hs, List.length_append]; omega
    have e2 : r.length + (Gex.signPad r).length + s'.length + (Gex.signPad s').length + sn.length + 4 * 4 =
        (sigTwo sn r s').length := by
      simp only [sigTwo, encString, List.length_append, lr, ls]
      simp [encUint32]; omega
    have e3 : r.length + (Gex.signPad r).length + s'.length + (Gex.signPad s').length + 4 * 2 =
        (encString (unsigned r) ++ encString (unsigned s')).length := by
      simp only [encString, List.length_append, lr, ls]
      simp [encUint32]; omega
    rw [e2, e3, ← lr, ← ls]
    simp only [c32toa_eq, List.append_assoc]
    rw [← List.append_assoc (Gex.signPad r), hr, hs]
    simp only [fields, sigTwo, encString, List.append_assoc]

theorem build_ed (s : Cl) (o : Offer) (k : KeySig) (msg : Bytes) (hh : k.hasSig = true)
    (hk : k.sigId = ID_ED25519 ∨ k.sigId = ID_OSSH_CERT_ED25519) :
    buildPublicKey s o k msg =
      match o.sign k.sigId (encString s.sessionId ++ (msg ++ fields o.type o.blob)) with
      | .error e => .error e
      | .ok sig => .ok (fields o.type o.blob ++ encString (sigOne (text "ssh-ed25519") sig)) := by
  unfold buildPublicKey
  rw [if_neg (by rw [hh]; simp), if_neg, if_neg, if_pos hk]
  rotate_left
  · rcases hk with h2 | h2 <;> rw [h2] <;> decide
  · rcases hk with h2 | h2 <;> rw [h2] <;> decide
  simp only [buildEd25519, str_eq, checkData, c32toa_eq s.sessionId.length]
  have e1 : encUint32 s.sessionId.length ++ s.sessionId ++ (msg ++ ([1] ++ encString o.type ++ encString o.blob)) =
      encString s.sessionId ++ (msg ++ fields o.type o.blob) := rfl
  rw [e1]
  cases o.sign k.sigId (encString s.sessionId ++ (msg ++ fields o.type o.blob)) with
  | error e => rfl
  | ok sig =>
    simp only
    have e2 : 4 * 2 + (asc "ssh-ed25519").length + sig.length = sig.length + (asc "ssh-ed25519").length + 4 * 2 := by omega
    rw [e2, sigOne_eq _ sig sig.length rfl]
    rfl

theorem unsigned_length (n : Bytes) : (unsigned n).length ≤ n.length + 1 := by
  unfold unsigned; split <;> simp

/-- A public key request that was sent. -/
theorem key_sent {s : Cl} {o : Offer} {sz est : Nat} {k : KeySig} {b : Bytes} {algs : List Bytes} (hk : Known s.peerSigId algs)
    (hp : preparePublicKey s sz o = .ok (est, k)) (hb : buildPublicKey s o k (requestHead s (.publicKey o)) = .ok b) :
    ∃ alg sn sig, choice o.type algs = some (alg, sn) ∧ SignedBy o sn (toSign s.sessionId s.userName alg o.blob) sig ∧
      b = fields alg o.blob ++ encString sig ∧
      (Honest o → sz + b.length + 2 * o.type.length + 20000 < 2^32 → sz + b.length ≤ est + 5) := by
  unfold preparePublicKey at hp
  simp only at hp
  rcases choice_cases hk o.type with ⟨alg, sn, x, hc, hf⟩ | ⟨-, hn⟩
  · rw [if_neg hf.ne, hf.extra, hf.name] at hp
    simp only at hp
    cases hl : o.load (nameToId table o.type) with
    | error e => rw [hl] at hp; cases hp
    | ok n =>
      rw [hl] at hp
      simp only [Except.ok.injEq, Prod.mk.injEq] at hp
      obtain ⟨he, rfl⟩ := hp
      have hh : ∀ alg, requestHead s (.publicKey o) ++ fields alg o.blob = keyOffer s.userName alg o.blob := by
        intro alg; rw [head_eq]; rfl
      rcases hf.fam with ⟨rfl, hsn, hl5, hm⟩ | ⟨rfl, hal, hl5, hm, hs3⟩ | ⟨rfl, hal, hl5, hm, rfl, hs3⟩
      · rw [build_rsa s o _ _ rfl hsn hm] at hb
        simp only [hh] at hb
        cases hsg : o.sign (nameToId table sn) (encString s.sessionId ++ keyOffer s.userName alg o.blob) with
        | error e => rw [hsg] at hb; cases hb
        | ok sig =>
          rw [hsg] at hb
          simp only at hb
          by_cases hbad : sig.length ≠ n ∨ sig.length = 0
          · rw [if_pos hbad] at hb; cases hb
          · rw [if_neg hbad] at hb
            simp only [Except.ok.injEq] at hb
            refine ⟨alg, sn, sigOne sn sig, hc, ?_, hb.symm, ?_⟩
            · unfold SignedBy; rw [if_pos hsn]; exact ⟨sig, hsg, rfl⟩
            · intro _ hlt
              rw [← hb] at hlt ⊢
              simp only [fields, sigOne, encString, List.length_append] at hlt ⊢
              simp only [encUint32, List.length_cons, List.length_nil] at hlt ⊢
              omega
      · have hk' : (KeySig.mk (nameToId table o.type) (matchIdLists Side.client (algosOf (nameToId table o.type)) s.peerSigId) alg n true).sigId =
            nameToId table o.type := hm
        rw [build_ecc s o _ _ (sn := sn) rfl (by rw [hk']; exact hs3), hk'] at hb
        simp only [hh] at hb
        cases hsg : o.signRs (nameToId table o.type) (encString s.sessionId ++ keyOffer s.userName o.type o.blob) with
        | error e => rw [hsg] at hb; cases hb
        | ok rs =>
          obtain ⟨r, s'⟩ := rs
          rw [hsg] at hb
          simp only [Except.ok.injEq] at hb
          subst hal
          refine ⟨o.type, sn, sigTwo sn r s', hc, ?_, hb.symm, ?_⟩
          · unfold SignedBy
            rw [if_neg, if_neg]
            · exact ⟨r, s', hsg, rfl⟩
            · rcases hs3 with h | h | h <;> rw [h.1] <;> decide
            · rcases hs3 with h | h | h <;> rw [h.1] <;> decide
          · intro ho hlt
            have h3 := ho.size _ _ hl
            have h2 := ho.two _ _ _ _ _ _ hl hsg
            have u1 := unsigned_length r
            have u2 := unsigned_length s'
            rw [← hb] at hlt ⊢
            simp only [fields, sigTwo, encString, List.length_append] at hlt ⊢
            simp only [encUint32, List.length_cons, List.length_nil] at hlt ⊢
            rw [← he]
            omega
      · have hk' : (KeySig.mk (nameToId table o.type) (matchIdLists Side.client (algosOf (nameToId table o.type)) s.peerSigId) alg n true).sigId =
            nameToId table o.type := hm
        rw [build_ed s o _ _ rfl (by rw [hk']; exact hs3), hk'] at hb
        simp only [hh] at hb
        cases hsg : o.sign (nameToId table o.type) (encString s.sessionId ++ keyOffer s.userName o.type o.blob) with
        | error e => rw [hsg] at hb; cases hb
        | ok sig =>
          rw [hsg] at hb
          simp only [Except.ok.injEq] at hb
          subst hal
          refine ⟨o.type, _, sigOne (text "ssh-ed25519") sig, hc, ?_, hb.symm, ?_⟩
          · unfold SignedBy
            rw [if_neg (by decide), if_pos rfl]
            exact ⟨sig, hsg, rfl⟩
          · intro ho hlt
            have h3 := ho.size _ _ hl
            have h2 := ho.one _ _ _ _ _ hl hsg
            rw [← hb] at hlt ⊢
            simp only [fields, sigOne, encString, List.length_append] at hlt ⊢
            simp only [encUint32, List.length_cons, List.length_nil] at hlt ⊢
            omega
  · rcases hn with hn | hn
    · rw [if_pos hn] at hp; cases hp
    · by_cases hu : matchIdLists .client (algosOf (nameToId table o.type)) s.peerSigId = ID_UNKNOWN
      · rw [if_pos hu] at hp; cases hp
      · rw [if_neg hu, hn] at hp; cases hp

end Proofs.ClientAuth
