import Verif.Proofs.Composite
/-!
# C142, C143: composite signatures
-/

namespace Props.Composite
open Wolf (Byte Bytes add32)
open Wolf.Wire Wolf.Composite Spec.Composite Proofs.Composite
open Wolf.CertMan (cut)
open Spec.Wire (encString encUint32 CanonicalMpint beNat)
open Proofs.Ossh (str_inv str_fwd str_deref str_ne_ub enc_length refAt refAt_sz encString_inj)
open Proofs.CertMan (cut_inv cut_fwd)
open Props.Wire (msgFrom)

/-- C142: a composite signature is accepted exactly if both parts are good, for the same digest, bound to the name of the
combination. Nothing outside of the signature is read. -/
theorem C142 (L : Lib) (a : Alg) (pq trad sig msg : Bytes) (hw : sig.length < 2 ^ 32) :
    (verify L a pq trad sig msg = .success ↔ Good L a pq trad sig msg) ∧ verify L a pq trad sig msg ≠ .ub :=
  ⟨verify_iff L a pq trad sig msg hw, verify_ne_ub L a pq trad sig msg hw⟩

/-- C142: what the parts sign tells the combination and the digest, so that neither part can be used in another combination. -/
theorem C142_domain (a b : Alg) (d d' : Bytes) (h : bound a d = bound b d') : a = b ∧ d = d' := by
  unfold bound at h
  obtain ⟨h1, h2⟩ := zero_split (label_nul a) (label_nul b) (List.append_cancel_left h)
  exact ⟨label_inj a b h1, h2⟩

theorem key_iff (L : Lib) (a : Alg) (algo blob pq trad : Bytes) (hw : blob.length < 2 ^ 32) :
    importKey L a algo blob = .ok (pq, trad) ↔
      KeyBlob a algo blob pq trad ∧ L.imports a none pq = true ∧ L.imports a (some (params a).trad) trad = true := by
  have hl := Nat.le_refl blob.length
  constructor
  · intro h
    unfold importKey at h
    cases h1 : cut blob blob.length 0 with
    | ub => rw [h1] at h; cases h
    | err e i => rw [h1] at h; cases h
    | ok t i =>
      obtain ⟨a1, a2, a3⟩ := cut_inv hl hw h1
      rw [h1] at h
      simp only at h
      by_cases h2 : t ≠ algo
      · rw [if_pos h2] at h; cases h
      rw [if_neg h2] at h
      replace h2 := Classical.not_not.1 h2
      subst h2
      cases h3 : getStringRef blob blob.length i with
      | ub => rw [h3] at h; cases h
      | err e i => rw [h3] at h; cases h
      | ok r j =>
        obtain ⟨pub, rfl, b2, b3, b4, b5⟩ := str_inv hl hw h3
        rw [h3] at h
        simp only at h
        rw [refAt_sz, str_deref hl b5 hw] at h
        by_cases h4 : pub.length ≠ (params a).pubSz + (params a).tradPubSz
        · rw [if_pos h4] at h; cases h
        rw [if_neg h4] at h
        replace h4 := Classical.not_not.1 h4
        simp only at h
        by_cases h5 : L.imports a none (pub.take (params a).pubSz) = false
        · rw [if_pos h5] at h; cases h
        rw [if_neg h5] at h
        by_cases h6 : L.imports a (some (params a).trad) (pub.drop (params a).pubSz) = false
        · rw [if_pos h6] at h; cases h
        rw [if_neg h6] at h
        injection h with h
        injection h with h7 h8
        subst h7 h8
        refine ⟨⟨msgFrom blob blob.length j, ?_, ?_, ?_⟩, by simpa using h5, by simpa using h6⟩
        · rw [List.take_append_drop, ← b5, ← a3, from_zero]
        · rw [List.length_take, ← pub_eq]; omega
        · rw [List.length_drop, ← tradPub_eq]; omega
  · rintro ⟨⟨rest, h1, h2, h3⟩, h4, h5⟩
    have f1 : msgFrom blob blob.length 0 = encString algo ++ (encString (pq ++ trad) ++ rest) := by rw [from_zero]; exact h1
    obtain ⟨c1, c2, c3⟩ := cut_fwd hl hw f1
    obtain ⟨c4, c5⟩ := str_fwd hl hw c2
    rw [← pub_eq] at h2
    rw [← tradPub_eq] at h3
    unfold importKey
    rw [c1]
    simp only
    rw [if_neg (fun h => h rfl), c4]
    simp only
    rw [refAt_sz, if_neg (by rw [List.length_append]; omega), str_deref hl c2 hw]
    simp only
    rw [List.take_left' h2, List.drop_left' h2, if_neg (by rw [h4]; decide), if_neg (by rw [h5]; decide)]

theorem req_length (user service algo blob : Bytes) :
    (request user service algo blob).length = user.length + service.length + 9 + 1 + algo.length + blob.length + 20 := by
  have h9 : (asc "publickey").length = 9 := by decide +kernel
  unfold request
  simp only [List.length_append, List.length_cons, enc_length, h9]
  omega

theorem data_eq (user service algo blob : Bytes) (hq : (request user service algo blob).length < 2 ^ 32) :
    dataSz ⟨user.length, service.length, 9⟩ algo blob = (request user service algo blob).length := by
  rw [req_length] at hq ⊢
  unfold dataSz add32
  simp only
  omega

/-- C142: a server accepts the signature in a request exactly if the key and the signature have the form of RFC 4252, the keys can
be imported, and the composite signature of session, user, service, algorithm and key is good. -/
theorem C142_server (L : Lib) (a : Alg) (algo blob signature session user service rest : Bytes) (hb : blob.length < 2 ^ 32)
    (hs : signature.length < 2 ^ 32) (hq : (request user service algo blob).length < 2 ^ 32) :
    serverCheck L a algo blob signature session (request user service algo blob ++ rest) ⟨user.length, service.length, 9⟩ = .success ↔
      ∃ pq trad sig, KeyBlob a algo blob pq trad ∧ L.imports a none pq = true ∧ L.imports a (some (params a).trad) trad = true ∧
        SigBlob algo signature sig ∧ Good L a pq trad sig (toSign session user service algo blob) := by
  have hl := Nat.le_refl signature.length
  have hd := data_eq user service algo blob hq
  have hmsg : c32toa session.length ++ session ++ [50] ++ (request user service algo blob ++ rest).take (dataSz ⟨user.length, service.length, 9⟩ algo blob) =
      toSign session user service algo blob := by
    rw [hd, List.take_left, c32toa_eq]
    unfold toSign encString
    simp
  have hmem : ¬ (request user service algo blob ++ rest).length < dataSz ⟨user.length, service.length, 9⟩ algo blob := by
    rw [hd, List.length_append]; omega
  unfold serverCheck
  rw [hmsg]
  constructor
  · intro h
    cases h1 : importKey L a algo blob with
    | error e =>
      rw [h1] at h
      simp only at h
      subst h
      exfalso
      revert h1
      unfold importKey
      repeat' split
      all_goals (intro h; cases h)
    | ok k =>
      obtain ⟨pq, trad⟩ := k
      obtain ⟨k1, k2, k3⟩ := (key_iff L a algo blob pq trad hb).1 h1
      rw [h1] at h
      simp only at h
      cases h2 : cut signature signature.length 0 with
      | ub => rw [h2] at h; cases h
      | err e i => rw [h2] at h; cases h
      | ok t i =>
        obtain ⟨a1, a2, a3⟩ := cut_inv hl hs h2
        rw [h2] at h
        simp only at h
        by_cases h3 : t ≠ algo
        · rw [if_pos h3] at h; cases h
        rw [if_neg h3] at h
        replace h3 := Classical.not_not.1 h3
        subst h3
        cases h4 : cut signature signature.length i with
        | ub => rw [h4] at h; cases h
        | err e i => rw [h4] at h; cases h
        | ok sig j =>
          obtain ⟨b1, b2, b3⟩ := cut_inv hl hs h4
          rw [h4] at h
          simp only at h
          rw [if_neg hmem] at h
          refine ⟨pq, trad, sig, k1, k2, k3, ⟨msgFrom signature signature.length j, ?_⟩, (verify_iff L a pq trad sig _ (by omega)).1 h⟩
          rw [← b3, ← a3, from_zero]
  · rintro ⟨pq, trad, sig, k1, k2, k3, ⟨r, hr⟩, hg⟩
    rw [(key_iff L a algo blob pq trad hb).2 ⟨k1, k2, k3⟩]
    simp only
    obtain ⟨c1, c2, c3⟩ := cut_fwd (idx := 0) hl hs (by rw [from_zero]; exact hr)
    obtain ⟨c4, c5, c6⟩ := cut_fwd hl hs c2
    rw [c1]
    simp only
    rw [if_neg (fun h => h rfl), c4]
    simp only
    rw [if_neg hmem]
    exact (verify_iff L a pq trad sig _ (by omega)).2 hg

/-- C142: one thing that is not demanded is the shortest form of the numbers of an ECDSA signature: with a zero put before one of
them, it is accepted as well if there is room. So a signature can be changed into another by anybody. -/
theorem C142_padded (L : Lib) (a : Alg) (n : Nat) (ha : kind a = .ecdsa n) (pq trad x r s msg : Bytes) (hx : x.length = (pqSizes a).1)
    (hr : (encString r ++ encString s).length < 2 * (4 + n + 1))
    (hnum : ∀ h d, L.ecc trad h d (0 :: r) s = L.ecc trad h d r s)
    (hg : verify L a pq trad (x ++ (encString r ++ encString s)) msg = .success) :
    verify L a pq trad (x ++ (encString (0 :: r) ++ encString s)) msg = .success := by
  have hn : n ≤ 48 := by
    cases a <;> first | (injection ha with ha; omega) | cases ha
  have hp : (pqSizes a).1 ≤ 4627 := by cases a <;> decide
  have e0 : (encString (0 :: r) ++ encString s).length = (encString r ++ encString s).length + 1 := by
    simp only [List.length_append, enc_length, List.length_cons]; omega
  have hw1 : (x ++ (encString r ++ encString s)).length < 2 ^ 32 := by rw [List.length_append]; omega
  have hw2 : (x ++ (encString (0 :: r) ++ encString s)).length < 2 ^ 32 := by rw [List.length_append]; omega
  obtain ⟨d, x', t, g1, g2, g3, g4, g5⟩ := (verify_iff L a pq trad _ msg hw1).1 hg
  obtain ⟨rfl, rfl⟩ := List.append_inj g2 (by omega)
  refine (verify_iff L a pq trad _ msg hw2).2 ⟨d, x, _, g1, rfl, hx, g4, ?_⟩
  unfold TradGood at g5 ⊢
  rw [ha] at g5 ⊢
  simp only at g5 ⊢
  obtain ⟨r', s', d', q1, q2, q3, q4⟩ := g5
  have l1 : r.length < 2 ^ 32 ∧ s.length < 2 ^ 32 ∧ r'.length < 2 ^ 32 ∧ s'.length < 2 ^ 32 := by
    have := congrArg List.length q1
    simp only [List.length_append, enc_length] at this hr
    omega
  obtain ⟨u1, u2⟩ := encString_inj l1.1 l1.2.2.1 q1
  subst u1
  obtain ⟨u3, _⟩ := encString_inj (r := []) (r' := []) l1.2.1 l1.2.2.2 (by rw [List.append_nil, List.append_nil]; exact u2)
  subst u3
  exact ⟨0 :: r, s, d', rfl, by omega, q3, by rw [hnum]; exact q4⟩

/-- C143: what is signed fits into the room demanded for it, and is good for the public keys. -/
theorem C143 (L : Lib) (S : Signer) (a : Alg) (pq trad : Bytes) (hS : Matches L S a pq trad) (cap : Nat) (msg sig : Bytes)
    (h : sign L S a cap msg = .ok sig) : sig.length ≤ cap ∧ Good L a pq trad sig msg ∧ verify L a pq trad sig msg = .success := by
  obtain ⟨hc, d, x, t, h1, h2, h3, h4, rfl⟩ := sign_inv h
  have hsz := tradSign_size h4
  have hb : (params a).sigSz + (params a).tradSigSz ≤ 5000 := by cases a <;> decide
  have hg : Good L a pq trad (x ++ t) msg := by
    refine ⟨d, x, t, (digest_iff ..).2 h1, rfl, by rw [← sig_eq]; exact h3, ?_, ?_⟩
    · rw [← label_eq, ← prime_eq]; exact hS.mldsa _ _ _ h2
    · rw [← prime_eq]
      have he : ∀ n, kind a = .ecdsa n → (params a).trad = .ecc → (params a).tradSigSz = 2 * (4 + n + 1) →
          TradGood L a trad (mPrime (params a) d) t := by
        intro n hk ht hz
        unfold tradSign at h4
        rw [ht] at h4
        obtain ⟨d', r, s, q1, q2, q3, q4⟩ := eccSign_inv h4
        unfold TradGood
        rw [hk]
        exact ⟨_, _, d', q3, by rw [← hz]; exact q4, (digest_iff ..).2 q1, hS.ecc d' r s _ _ q2 (pad_beNat r) (pad_beNat s)⟩
      have hd : ∀ k n z e, kind a = .eddsa k n z → tradSign L S (params a) (mPrime (params a) d) = edSign S (params a) e n (mPrime (params a) d) →
          TradGood L a trad (mPrime (params a) d) t := by
        intro k n z e hk he
        rw [he] at h4
        obtain ⟨q1, q2, _⟩ := edSign_inv h4
        unfold TradGood
        rw [hk]
        exact ⟨q2, hS.ed _ _ k n z hk q1⟩
      cases a with
      | es44 => exact he 32 rfl rfl rfl
      | es65 => exact he 32 rfl rfl rfl
      | es87 => exact he 48 rfl rfl rfl
      | ed44 => exact hd _ _ _ _ rfl rfl
      | ed65 => exact hd _ _ _ _ rfl rfl
      | ed87 => exact hd _ _ _ _ rfl rfl
  exact ⟨by rw [List.length_append]; omega, hg, (verify_iff L a pq trad _ msg (by rw [List.length_append]; omega)).2 hg⟩

theorem pad_le (r : Bytes) : (pad r).length ≤ 1 := by
  unfold pad
  by_cases h : r.headD 0 &&& 0x80 ≠ 0
  · rw [if_pos h]; exact Nat.le_refl _
  · rw [if_neg h]; exact Nat.zero_le _

/-- C143: signing does not fail if the private keys answer and there is room. -/
theorem C143_signs (L : Lib) (S : Signer) (a : Alg) (hA : Answers L S a) (cap : Nat) (msg : Bytes)
    (hc : (params a).sigSz + (params a).tradSigSz ≤ cap) : ∃ sig, sign L S a cap msg = .ok sig := by
  obtain ⟨d, hd⟩ := hA.hash msg
  obtain ⟨x, hx, hxl⟩ := hA.mldsa (mPrime (params a) d)
  rw [← label_eq] at hx
  have ht : ∃ t, tradSign L S (params a) (mPrime (params a) d) = .ok t := by
    have he : ∀ n, kind a = .ecdsa n → (params a).trad = .ecc → (params a).tradSigSz = 2 * (4 + n + 1) →
        ∃ t, tradSign L S (params a) (mPrime (params a) d) = .ok t := by
      intro n hk htr hz
      obtain ⟨d', hd'⟩ := hA.hash (mPrime (params a) d)
      obtain ⟨r, s, hrs, hr, hs⟩ := hA.ecc n d' hk
      have pr := pad_le r
      have ps := pad_le s
      refine ⟨c32toa (r.length + (pad r).length) ++ pad r ++ r ++ c32toa (s.length + (pad s).length) ++ pad s ++ s, ?_⟩
      unfold tradSign
      rw [htr]
      simp only
      unfold eccSign
      rw [(digest_iff ..).1 hd']
      simp only
      rw [hrs]
      simp only
      rw [if_neg (by rw [hz]; omega)]
    have hd2 : ∀ k n z e, kind a = .eddsa k n z → tradSign L S (params a) (mPrime (params a) d) = edSign S (params a) e n (mPrime (params a) d) →
        (params a).tradSigSz = n → ∃ t, tradSign L S (params a) (mPrime (params a) d) = .ok t := by
      intro k n z e hk he hz
      obtain ⟨y, hy, hyl⟩ := hA.ed (mPrime (params a) d) k n z hk
      refine ⟨y, ?_⟩
      rw [he]
      unfold edSign
      rw [if_neg (by omega), hy]
      simp only
      rw [if_neg (fun h => h hyl)]
    cases a with
    | es44 => exact he 32 rfl rfl rfl
    | es65 => exact he 32 rfl rfl rfl
    | es87 => exact he 48 rfl rfl rfl
    | ed44 => exact hd2 _ _ _ _ rfl rfl rfl
    | ed65 => exact hd2 _ _ _ _ rfl rfl rfl
    | ed87 => exact hd2 _ _ _ _ rfl rfl rfl
  obtain ⟨t, ht⟩ := ht
  refine ⟨x ++ t, ?_⟩
  unfold sign
  rw [if_neg (by omega), (digest_iff ..).1 hd]
  simp only
  rw [hx]
  simp only
  rw [if_neg (fun h => h (by rw [hxl, sig_eq])), ht]

/-- C143: the numbers of an ECDSA part are written as RFC 4251 wants it, if wolfCrypt gives them without leading zeros. -/
theorem C143_mpint (L : Lib) (S : Signer) (p : Params) (m t : Bytes) (h : eccSign L S p m = .ok t)
    (hz : ∀ d r s, S.ecc d = some (r, s) → r.head? ≠ some 0 ∧ s.head? ≠ some 0) :
    ∃ d r s rb sb, S.ecc d = some (r, s) ∧ t = encString rb ++ encString sb ∧ CanonicalMpint rb (beNat r) ∧ CanonicalMpint sb (beNat s) := by
  obtain ⟨d, r, s, _, h2, h3, _⟩ := eccSign_inv h
  have key : ∀ r : Bytes, r.head? ≠ some 0 → CanonicalMpint (pad r ++ r) (beNat r) := by
    intro r hr
    refine ⟨pad_beNat r, ?_, ?_⟩
    · intro b rest hb
      unfold pad at hb
      by_cases hp : r.headD 0 &&& 0x80 ≠ 0
      · rw [if_pos hp] at hb
        injection hb with hb _
        rw [← hb]; decide
      · rw [if_neg hp] at hb
        simp only [List.nil_append] at hb
        subst hb
        exact Nat.lt_of_not_le (fun hle => hp (by rw [List.headD_cons]; exact (high_bit b).2 hle))
    · intro rest hb
      unfold pad at hb
      by_cases hp : r.headD 0 &&& 0x80 ≠ 0
      · rw [if_pos hp] at hb
        injection hb with _ hb
        change r = rest at hb
        subst hb
        cases r with
        | nil => exact absurd rfl hp
        | cons c r => exact ⟨c, r, rfl, (high_bit c).1 (by rw [List.headD_cons] at hp; exact hp)⟩
      · rw [if_neg hp] at hb
        simp only [List.nil_append] at hb
        subst hb
        exact absurd rfl hr
  obtain ⟨z1, z2⟩ := hz d r s h2
  exact ⟨d, r, s, _, _, h2, h3, key r z1, key s z2⟩

/-- C143: what a client appends to its request is one string, within the room reserved for it, and the server accepts it. -/
theorem C143_auth (L : Lib) (S : Signer) (a : Alg) (algo blob session user service rest pq trad out : Bytes) (hS : Matches L S a pq trad)
    (hk : KeyBlob a algo blob pq trad) (hi : L.imports a none pq = true) (ht : L.imports a (some (params a).trad) trad = true)
    (ha : algo.length ≤ 64) (hb : blob.length < 2 ^ 32) (hq : (request user service algo blob).length < 2 ^ 32)
    (h : buildAuth L S a algo session (50 :: request user service algo blob) = .ok out) :
    out.length ≤ reserved a algo ∧ ∃ signature, out = encString signature ∧
      serverCheck L a algo blob signature session (request user service algo blob ++ rest) ⟨user.length, service.length, 9⟩ = .success := by
  unfold buildAuth at h
  have hm : clientData session (50 :: request user service algo blob) = toSign session user service algo blob := by
    unfold clientData toSign encString
    rw [c32toa_eq]
  rw [hm] at h
  cases h1 : sign L S a ((params a).sigSz + (params a).tradSigSz) (toSign session user service algo blob) with
  | error e => rw [h1] at h; cases h
  | ok sig =>
    rw [h1] at h
    injection h with h
    obtain ⟨g1, g2, _⟩ := C143 L S a pq trad hS _ _ _ h1
    have hsz : (params a).sigSz + (params a).tradSigSz ≤ 5000 := by cases a <;> decide
    have hout : out = encString (encString algo ++ encString sig) := by
      rw [← h, c32toa_eq, c32toa_eq, c32toa_eq]
      have : (encString algo ++ encString sig).length = 4 * 2 + algo.length + sig.length := by
        rw [List.length_append, enc_length, enc_length]; omega
      rw [← this]
      unfold encString
      rfl
    refine ⟨?_, encString algo ++ encString sig, hout, ?_⟩
    · rw [hout, enc_length, List.length_append, enc_length, enc_length]
      unfold reserved
      omega
    · refine (C142_server L a algo blob _ session user service rest hb (by rw [List.length_append, enc_length, enc_length]; omega) hq).2
        ⟨pq, trad, sig, hk, hi, ht, ⟨[], by rw [List.append_nil]⟩, g2⟩

/-! ## Concrete cases -/

/-- A library in miniature: hashes and signatures are of zeros; a signature is good if it says so. -/
def mLib : Lib where
  hash _ n _ := some (List.replicate n 7)
  ecc _ _ _ r s := beNat r == 200 && beNat s == 5
  ed _ _ _ x := x == List.replicate 64 1
  mldsa a _ ctx _ x := ctx == label a && x == List.replicate (pqSizes a).1 2
  imports _ _ _ := true

/-- Keys for it. -/
def mSigner (a : Alg) : Signer where
  mldsa ctx _ := if ctx = label a then some (List.replicate (pqSizes a).1 2) else none
  ecc _ := some ([200], [5])
  ed _ := some (List.replicate 64 1)

/-- They match, as `C143` and `C143_auth` demand. -/
theorem m_matches (pq trad : Bytes) : Matches mLib (mSigner .es44) .es44 pq trad := by
  refine ⟨fun ctx m x h => ?_, fun d r s r' s' h h1 h2 => ?_, fun m x k n z hk _ => by cases hk⟩
  · change (if ctx = label .es44 then some (List.replicate 2420 2) else none) = some x at h
    by_cases hc : ctx = label .es44
    · rw [if_pos hc] at h
      injection h with h
      subst h
      rw [hc]
      show (label .es44 == label .es44 && List.replicate 2420 (2 : UInt8) == List.replicate 2420 2) = true
      simp
    · rw [if_neg hc] at h; cases h
  · injection h with h
    injection h with h3 h4
    subst h3 h4
    show (beNat r' == 200 && beNat s' == 5) = true
    rw [h1, h2]
    decide

theorem m_answers : Answers mLib (mSigner .es44) .es44 := by
  refine ⟨fun m => ⟨_, rfl⟩, fun m => ⟨List.replicate 2420 2, if_pos rfl, List.length_replicate⟩, fun n d h => ?_, fun m k n z h => by cases h⟩
  injection h with h
  subst h
  exact ⟨[200], [5], rfl, by decide, by decide⟩

/-- A signature is made, and accepted. -/
example : ∃ sig, sign mLib (mSigner .es44) .es44 3000 [1, 2, 3] = .ok sig ∧ verify mLib .es44 [] [] sig [1, 2, 3] = .success := by
  obtain ⟨sig, h⟩ := C143_signs mLib (mSigner .es44) .es44 m_answers 3000 [1, 2, 3] (by decide)
  exact ⟨sig, h, (C143 _ _ _ [] [] (m_matches [] []) _ _ _ h).2.2⟩

/-- A request for a key is made. -/
example : ∃ algo blob pq trad out, KeyBlob .es44 algo blob pq trad ∧ algo.length ≤ 64 ∧ blob.length < 2 ^ 32 ∧
    (request [117] [115] algo blob).length < 2 ^ 32 ∧
    buildAuth mLib (mSigner .es44) .es44 algo [9, 9] (50 :: request [117] [115] algo blob) = .ok out := by
  refine ⟨[97], encString [97] ++ (encString (List.replicate 1312 1 ++ List.replicate 65 2) ++ []), List.replicate 1312 1, List.replicate 65 2, ?_⟩
  obtain ⟨sig, h⟩ := C143_signs mLib (mSigner .es44) .es44 m_answers _
    (clientData [9, 9] (50 :: request [117] [115] [97] (encString [97] ++ (encString (List.replicate 1312 1 ++ List.replicate 65 2) ++ []))))
    (Nat.le_refl _)
  refine ⟨c32toa (4 * 2 + 1 + sig.length) ++ (c32toa 1 ++ [97] ++ (c32toa sig.length ++ sig)),
    ⟨[], rfl, List.length_replicate, List.length_replicate⟩, by decide, ?_, ?_, ?_⟩
  · simp only [List.length_append, enc_length, List.length_replicate, List.length_cons, List.length_nil]; omega
  · rw [req_length]
    simp only [List.length_append, enc_length, List.length_replicate, List.length_cons, List.length_nil]; omega
  · unfold buildAuth
    rw [h]
    rfl

/-- A signature that can be changed by `C142_padded`. -/
example : verify mLib .es44 [] [] (List.replicate 2420 2 ++ (encString [200] ++ encString [5])) [] = .success :=
  (verify_iff _ _ _ _ _ _ (by simp only [List.length_append, enc_length, List.length_replicate, List.length_cons, List.length_nil]; omega)).2
    ⟨_, List.replicate 2420 2, _, rfl, rfl, List.length_replicate, by
      show (label .es44 == label .es44 && List.replicate 2420 (2 : UInt8) == List.replicate 2420 2) = true
      simp, [200], [5], _, rfl, by decide, rfl, by decide +kernel⟩

end Props.Composite
