import Verif.Proofs.AuthSafe
import Verif.Proofs.KexAgree
/-! Public key requests: from the handler's cursor to the bytes of the request. -/

namespace Wolf.UserAuth
open Wolf Wolf.Wire Wolf.NameList Props.Wire

theorem uint32_inv {msg rest : List UInt8} {n : Nat} (h : Spec.Wire.uint32 msg = some (n, rest)) :
    msg = Spec.Wire.encUint32 n ++ rest := by
  obtain ⟨h4, hn, hr⟩ := uint32_some h
  unfold Spec.Wire.uint32 at h
  rw [if_pos h4] at h
  simp only [Option.some.injEq, Prod.mk.injEq] at h
  have hl : (msg.take 4).length = (Spec.Wire.encUint32 n).length := by
    simp [Spec.Wire.encUint32]; omega
  have he : msg.take 4 = Spec.Wire.encUint32 n := by
    apply beNat_inj _ _ hl
    rw [h.1, beNat_encUint32 n hn]
  rw [← he, ← h.2, List.take_append_drop]

theorem string_inv {msg s rest : List UInt8} (h : Spec.Wire.string msg = some (s, rest)) :
    msg = Spec.Wire.encString s ++ rest := by
  unfold Spec.Wire.string at h
  split at h
  · cases h
  · rename_i n r hu
    split at h
    · rename_i hn
      simp only [Option.some.injEq, Prod.mk.injEq] at h
      obtain ⟨rfl, rfl⟩ := h
      have := uint32_inv hu
      rw [this]
      unfold Spec.Wire.encString
      rw [List.length_take, Nat.min_eq_left hn, List.append_assoc, List.take_append_drop]
    · cases h

theorem fld_eq (s : Bytes) : Wolf.Kex.fld s = Spec.Wire.encString s := by
  unfold Wolf.Kex.fld Spec.Wire.encString
  rw [c32toa_eq]

theorem encString_inj {s s' r r' : List UInt8} (hs : s.length < 4294967296)
    (hs' : s'.length < 4294967296)
    (h : Spec.Wire.encString s ++ r = Spec.Wire.encString s' ++ r') : s = s' ∧ r = r' := by
  have h1 := Wolf.Kex.string_fld s hs r
  have h2 := Wolf.Kex.string_fld s' hs' r'
  rw [fld_eq] at h1 h2
  rw [h, h2] at h1
  simp only [Option.some.injEq, Prod.mk.injEq] at h1
  exact ⟨h1.1.symm, h1.2.symm⟩

/-- A string read from a message: its bytes stand at the cursor. -/
theorem read_string {mem : Bytes} {len idx i : Nat} {r : StrRef} (hl : len ≤ mem.length)
    (hw : len < 2^32) (h : getStringRef mem len idx = .ok r i) :
    ∃ s, deref mem r = some s ∧ r.sz = s.length ∧ (view mem r).take r.sz = s ∧
      i = idx + 4 + s.length ∧ i ≤ len ∧
      msgFrom mem len idx = Spec.Wire.encString s ++ msgFrom mem len i := by
  have := C01_getStringRef mem len idx hl hw
  rw [h] at this
  obtain ⟨hi, s, hs, hi', hp⟩ := this
  have hv := view_len hl hw h
  refine ⟨s, hs, ?_, ?_, hi', hi, string_inv hp⟩
  · unfold deref at hs
    split at hs
    · split at hs
      · cases hs; assumption
      · cases hs
    · split at hs
      · simp only [Option.some.injEq] at hs
        rw [← hs, List.length_take, List.length_drop]; omega
      · cases hs
  · unfold deref at hs
    unfold view
    split at hs
    · rename_i hn
      split at hs
      · cases hs; simp [hn]
      · cases hs
    · rename_i o hn
      split at hs
      · simp only [Option.some.injEq] at hs
        simp [hn, hs]
      · cases hs

theorem read_bool {mem : Bytes} {len idx i : Nat} {b : Byte} (hl : len ≤ mem.length)
    (hw : len < 2^32) (h : getBoolean mem len idx = .ok b i) :
    msgFrom mem len idx = b :: msgFrom mem len i := by
  have := C01_getBoolean mem len idx hl hw
  rw [h] at this
  have h2 := this.2
  unfold Spec.Wire.byte at h2
  split at h2
  · cases h2
  · rename_i heq
    simp only [Option.some.injEq, Prod.mk.injEq] at h2
    rw [heq, h2.1, h2.2]

/-- What the verifiers check implies what the arithmetic said. -/
theorem verifySig_true {E : Env} {id : Nat} {algo km sm data : Bytes} {ks ss : Nat}
    (h : verifySig E id algo km ks sm ss data = some true) :
    E.crypto id (km.take ks) (sm.take ss) data = true := by
  unfold verifySig at h
  simp only at h
  split at h
  · split at h
    · cases h
    · cases h
    · split at h
      · cases h
      · cases h
      · simpa using h
  · cases h

/-- The body of a public key request, in bytes. -/
structure PkAt (mem : Bytes) (len idx : Nat) (b : PkBody) (algo key sig : Bytes) : Prop where
  da : deref mem b.algo = some algo
  dk : deref mem b.blob = some key
  ds : deref mem b.sig = some sig
  vk : (view mem b.blob).take b.blob.sz = key
  vs : (view mem b.sig).take b.sig.sz = sig
  sz : b.sig.sz = sig.length
  shape : (b.hasSig = true ∧ ∃ flag t, flag ≠ 0 ∧ msgFrom mem len idx =
      flag :: (Spec.Wire.encString algo ++ (Spec.Wire.encString key ++ (Spec.Wire.encString sig ++ t))))
    ∨ (b.hasSig = false ∧ sig = [] ∧ ∃ t, msgFrom mem len idx =
      0 :: (Spec.Wire.encString algo ++ (Spec.Wire.encString key ++ t)))

theorem parsePk_at {mem : Bytes} {len idx i : Nat} {b : PkBody} (hl : len ≤ mem.length)
    (hw : len < 2^32) (h : parsePk mem len idx = .ok b i) :
    ∃ algo key sig, PkAt mem len idx b algo key sig := by
  unfold parsePk at h
  split at h
  · cases h
  · cases h
  · rename_i h0
    have e0 := read_bool hl hw h0
    split at h
    · cases h
    · cases h
    · rename_i h1
      obtain ⟨algo, d1, _, _, _, _, e1⟩ := read_string hl hw h1
      split at h
      · cases h
      · cases h
      · rename_i h2
        obtain ⟨key, d2, _, v2, _, _, e2⟩ := read_string hl hw h2
        split at h
        · rename_i hf
          split at h
          · cases h
          · cases h
          · rename_i h3
            obtain ⟨sig, d3, z3, v3, _, _, e3⟩ := read_string hl hw h3
            cases h
            refine ⟨algo, key, sig, d1, d2, d3, v2, v3, z3, .inl ⟨rfl, _, msgFrom mem len i, hf, ?_⟩⟩
            rw [e0, e1, e2, e3]
        · rename_i hf
          cases h
          refine ⟨algo, key, [], d1, d2, rfl, v2, rfl, rfl, .inr ⟨rfl, rfl, msgFrom mem len i, ?_⟩⟩
          rw [e0, e1, e2, Classical.not_not.1 hf]

theorem pkFail_client (E : Env) (a : Auth) (b : Bool) : (pkFail E a b).2.clientState = a.clientState := by
  unfold pkFail
  exact failCount_client E a false true

theorem pkVerify_changes {E : Env} {a a' : Auth} {user mem sig : Bytes} {len : Nat} {s : Subject}
    {b : PkBody} {p : Bool} {r : Ret}
    (h : pkVerify E a user mem len s b sig p = some (r, a'))
    (hc : a'.clientState ≠ a.clientState) :
    p = false ∧ E.crypto s.id (s.mem.take s.sz) ((view mem b.sig).take b.sig.sz)
      (signedData a mem (sub32 (sub32 len b.sig.sz) 4)) = true := by
  unfold pkVerify at h
  simp only at h
  split at h
  · cases h
  · rename_i ok hv
    split at h
    · exfalso
      apply hc
      have := pkFail_client E (a.note (.sigChecked user s.algo s.key sig
        (signedData a mem (sub32 (sub32 len b.sig.sz) 4)) ok)) false
      simp only [Option.some.injEq] at h
      rw [h] at this
      exact this
    · rename_i hok
      have hok : ok = true := by simpa using hok
      subst hok
      have hcr := verifySig_true hv
      split at h
      · exfalso
        apply hc
        have := pkFail_client E (a.note (.sigChecked user s.algo s.key sig
          (signedData a mem (sub32 (sub32 len b.sig.sz) 4)) true)) false
        simp only [Option.some.injEq] at h
        rw [h] at this
        exact this
      · split at h
        · exfalso
          apply hc
          have := failCount_client E ((a.note (.sigChecked user s.algo s.key sig
            (signedData a mem (sub32 (sub32 len b.sig.sz) 4)) true)).note .resultAccepted) true true
          simp only [Option.some.injEq] at h
          rw [h] at this
          exact this
        · rename_i hp
          exact ⟨by simpa using hp, hcr⟩

/-- The key in question and the question about it, in terms of the request. -/
theorem subject_asks {E : Env} {mem : Bytes} {len i : Nat} {b : PkBody} {algo key : Bytes}
    (hb : BodyOk mem len b) (hi : parsePkInner mem b = .ok () i)
    (hv : (view mem b.blob).take b.blob.sz = key) {s : Subject}
    (h : pkSubject E mem b (nameToId E.table algo) algo key = .key s) :
    s.mem.take s.sz = s.key ∧
    Spec.Auth.asks (E.ossh.map Spec.OsshCert.judge) algo key s.algo s.key s.cert ∧
    (s.cert = none → s.id = nameToId E.table algo) ∧
    (s.cert ≠ none → s.id = nameToId OsshCert.keyTable s.algo) := by
  obtain ⟨_, rfl | ⟨K, alg, c, opts, sa, hK, hid, hsa, h1, h2, h3, hk, hm, hkt, sh, hc, hsh⟩⟩ := subject_spec E hb _ _ _ s h
  · exact ⟨hv, .inl ⟨rfl, rfl, rfl⟩, fun _ => rfl, fun h => absurd rfl h⟩
  · refine ⟨hm, .inr ⟨_, alg, c, opts, sh, by rw [hK]; rfl, hc, h1, by rw [← hv, h2], h3, hk, ?_, hsh⟩,
      fun hn => (by rw [hc] at hn; cases hn), fun _ => ?_⟩
    all_goals
      unfold Proofs.Ossh.keyTypeOf at hkt
      cases sa with
      | none =>
        simp only [Option.some.injEq, Prod.mk.injEq] at hkt
        rw [← hkt.2]
        first
          | exact List.mem_cons_self
          | (rw [← hkt.1]; cases alg <;> decide +kernel)
      | some n =>
        simp only at hkt
        split at hkt
        · rename_i hn
          simp only [Option.some.injEq, Prod.mk.injEq] at hkt
          rw [← hkt.2]
          first
            | exact List.mem_cons_of_mem _ hn
            | exact hkt.1.symm
        · cases hkt

theorem pkAnswer_changes {E : Env} {a a' : Auth} {user mem : Bytes} {len idx j : Nat} {r : Ret} {s : Subject}
    {b : PkBody} {algo key sig : Bytes}
    (h : pkAnswer E a user mem len idx s b algo key sig = .ret r j a') (hc : a'.clientState ≠ a.clientState) :
    b.hasSig = true ∧ (∃ cb, E.cb = some cb ∧ cb user (.publicKey s.algo s.key true sig s.cert) = .success) ∧
      E.crypto s.id (s.mem.take s.sz) ((view mem b.sig).take b.sig.sz)
        (signedData a mem (sub32 (sub32 len b.sig.sz) 4)) = true := by
  unfold pkAnswer at h
  split at h
  · cases h; exact absurd (pkFail_client E a false) hc
  · rename_i cb hcb
    simp only at h
    generalize hans : cb user (.publicKey s.algo s.key b.hasSig sig s.cert) = ans at h
    generalize ha1 : a.note (.asked user (.publicKey s.algo s.key b.hasSig sig s.cert) ans) = a1 at h
    have h1 : a1.clientState = a.clientState := by rw [← ha1]; rfl
    have h2 : a1.sessionId = a.sessionId := by rw [← ha1]; rfl
    have hsd : ∀ n, signedData a1 mem n = signedData a mem n := by
      intro n; unfold signedData; rw [h2]
    have ok' : (if queued E.sendPkOk = true then a1.note (.sentPkOk algo key) else a1).clientState
          = a.clientState := by
      split <;> exact h1
    split at h
    · cases h; exact absurd h1 hc
    · cases h; exact absurd ((pkFail_client E a1 true).trans h1) hc
    · split at h
      · rename_i hs
        split at h
        · cases h
        · rename_i hv
          cases h
          obtain ⟨_, hcr⟩ := pkVerify_changes hv (by rw [h1]; exact hc)
          rw [hsd] at hcr
          rw [hs] at hans
          exact ⟨hs, ⟨cb, hcb, hans⟩, hcr⟩
      · cases h; exact absurd ok' hc
    · split at h
      · split at h
        · cases h
        · rename_i hv
          cases h
          obtain ⟨hp, _⟩ := pkVerify_changes hv (by rw [h1]; exact hc)
          cases hp
      · cases h; exact absurd ok' hc
    · cases h; exact absurd ((pkFail_client E a1 false).trans h1) hc

/-- The public key handler authenticates only with the application's yes and a signature that
verifies over the computed bytes. -/
theorem publicKey_changes {E : Env} {a a' : Auth} {user mem : Bytes} {len idx j : Nat} {r : Ret}
    (hl : len ≤ mem.length) (hw : len < 2^32)
    (h : doUserAuthRequestPublicKey E a user mem len idx = .ret r j a')
    (hc : a'.clientState ≠ a.clientState) :
    ∃ flag algo key sig t id' algo' key' cert, flag ≠ 0 ∧ msgFrom mem len idx =
        flag :: (Spec.Wire.encString algo ++ (Spec.Wire.encString key ++ (Spec.Wire.encString sig ++ t))) ∧
      sig.length + 4 ≤ len ∧
      Spec.Auth.asks (E.ossh.map Spec.OsshCert.judge) algo key algo' key' cert ∧
      (∃ cb, E.cb = some cb ∧ cb user (.publicKey algo' key' true sig cert) = .success) ∧
      nameToId E.table algo ∈ E.keyAlgos ∧
      (cert = none → id' = nameToId E.table algo) ∧
      (cert ≠ none → id' = nameToId OsshCert.keyTable algo') ∧
      E.crypto id' key' sig (signedData a mem (len - sig.length - 4)) = true := by
  unfold doUserAuthRequestPublicKey at h
  split at h
  · cases h
  · cases h; exact absurd rfl hc
  · rename_i b _ hpk
    obtain ⟨algo, key, sig, P⟩ := parsePk_at hl hw hpk
    have hok := parsePk_ok hl hw hpk
    split at h
    · cases h
    · cases h; exact absurd rfl hc
    · rename_i hi
      rw [P.da, P.dk, P.ds] at h
      simp only at h
      split at h
      · cases h; exact absurd (pkFail_client E a false) hc
      · rename_i hid
        split at h
        · cases h
        · cases h; exact absurd (pkFail_client E a false) hc
        · rename_i s hs
          obtain ⟨hm, hask, hn1, hn2⟩ := subject_asks hok hi P.vk hs
          obtain ⟨hsig, hcb, hcr⟩ := pkAnswer_changes h hc
          rw [hm, P.vs] at hcr
          have hfit := hok.sigFits hsig
          have hsz : sub32 (sub32 len b.sig.sz) 4 = len - sig.length - 4 := by
            rw [P.sz] at hfit ⊢
            unfold sub32
            omega
          rw [hsz] at hcr
          rcases P.shape with ⟨_, flag, t, hf, hmsg⟩ | ⟨hf, _⟩
          · exact ⟨flag, algo, key, sig, t, s.id, s.algo, s.key, s.cert, hf, hmsg, by rw [P.sz] at hfit; exact hfit,
              hask, hcb, Classical.not_not.1 (fun hx => hid (.inr hx)), hn1, hn2, hcr⟩
          · rw [hf] at hsig; cases hsig

/-- Events of a request without signature. -/
def Offer (e : Ev) : Prop :=
  (∃ u q x, e = .asked u q x) ∨ (∃ al k, e = .sentPkOk al k) ∨ (∃ p, e = .sentFailure p) ∨
    e = .sentDisconnect

theorem failCount_offer (E : Env) (a : Auth) (p c : Bool) :
    ∃ l, (sendUserAuthFailureCount E a p c).2.log = a.log ++ l ∧ ∀ e ∈ l, Offer e := by
  have h1 : Offer (Ev.sentFailure p) := .inr (.inr (.inl ⟨_, rfl⟩))
  have h2 : Offer Ev.sentDisconnect := .inr (.inr (.inr rfl))
  unfold sendUserAuthFailureCount sendUserAuthFailure countUserAuthFailure
  simp only [Auth.note]
  cases queued E.sendFailure <;> cases c <;> simp only [if_true, Bool.false_eq_true, if_false]
  · exact ⟨[], by simp, by simp⟩
  · by_cases h : add32 a.authFailures 1 ≥ a.maxAuthAttempts
    · simp only [if_pos h]; exact ⟨_, rfl, by simp [h2]⟩
    · simp only [if_neg h]; exact ⟨[], by simp, by simp⟩
  · exact ⟨_, rfl, by simp [h1]⟩
  · by_cases h : add32 a.authFailures 1 ≥ a.maxAuthAttempts
    · simp only [if_pos h, List.append_assoc]; exact ⟨_, rfl, by simp [h1, h2]⟩
    · simp only [if_neg h]; exact ⟨_, rfl, by simp [h1]⟩

theorem pkFail_offer (E : Env) (a : Auth) (b : Bool) :
    ∃ l, (pkFail E a b).2.log = a.log ++ l ∧ ∀ e ∈ l, Offer e := by
  unfold pkFail
  exact failCount_offer E a false true

theorem pkAnswer_offer {E : Env} {a a' : Auth} {user mem : Bytes} {len idx j : Nat} {r : Ret} {s : Subject}
    {b : PkBody} {algo key sig : Bytes}
    (h : pkAnswer E a user mem len idx s b algo key sig = .ret r j a') (hns : b.hasSig = false) :
    ∃ l, a'.log = a.log ++ l ∧ ∀ e ∈ l, Offer e := by
  unfold pkAnswer at h
  simp only [hns, Bool.false_eq_true, if_false] at h
  split at h
  · cases h; exact pkFail_offer E a false
  · rename_i cb hcb
    have hx : ∀ a1 : Auth, (∃ l, a'.log = a1.log ++ l ∧ ∀ e ∈ l, Offer e) →
        ∀ u q y, a1 = a.note (.asked u q y) → ∃ l, a'.log = a.log ++ l ∧ ∀ e ∈ l, Offer e := by
      intro a1 ⟨l, hl, ho⟩ u q y ha
      subst ha
      refine ⟨.asked u q y :: l, by rw [hl]; simp [Auth.note], ?_⟩
      intro e he
      rcases List.mem_cons.1 he with rfl | he
      · exact .inl ⟨_, _, _, rfl⟩
      · exact ho e he
    have hk : ∀ a1 : Auth, ∃ l,
        (if queued E.sendPkOk = true then a1.note (.sentPkOk algo key) else a1).log = a1.log ++ l ∧
        ∀ e ∈ l, Offer e := by
      intro a1
      split
      · exact ⟨[.sentPkOk algo key], rfl, by simp [Offer]⟩
      · exact ⟨[], by simp, by simp⟩
    split at h
    · cases h; exact ⟨[_], rfl, by simp [Offer]⟩
    · cases h; exact hx _ (pkFail_offer E _ true) _ _ _ rfl
    · cases h; exact hx _ (hk _) _ _ _ rfl
    · cases h; exact hx _ (hk _) _ _ _ rfl
    · cases h; exact hx _ (pkFail_offer E _ false) _ _ _ rfl

theorem publicKey_offer {E : Env} {a a' : Auth} {user mem : Bytes} {len idx j : Nat} {r : Ret}
    {t : Bytes} (hl : len ≤ mem.length) (hw : len < 2^32)
    (h : doUserAuthRequestPublicKey E a user mem len idx = .ret r j a')
    (hf : msgFrom mem len idx = 0 :: t) :
    ∃ l, a'.log = a.log ++ l ∧ ∀ e ∈ l, Offer e := by
  unfold doUserAuthRequestPublicKey at h
  split at h
  · cases h
  · cases h; exact ⟨[], by simp, by simp⟩
  · rename_i b _ hpk
    obtain ⟨algo, key, sig, P⟩ := parsePk_at hl hw hpk
    have hns : b.hasSig = false := by
      rcases P.shape with ⟨_, flag, t', hne, hm⟩ | ⟨hf', _⟩
      · rw [hf] at hm
        simp only [List.cons.injEq] at hm
        exact absurd hm.1.symm hne
      · exact hf'
    split at h
    · cases h
    · cases h; exact ⟨[], by simp, by simp⟩
    · rw [P.da, P.dk, P.ds] at h
      simp only at h
      split at h
      · cases h; exact pkFail_offer E a false
      · split at h
        · cases h
        · cases h; exact pkFail_offer E a false
        · exact pkAnswer_offer h hns

/-- Either the request ended before its method was looked at, or the method's handler ran. -/
theorem request_shape {E : Env} {a a' : Auth} {mem : Bytes} {len j : Nat} {r : Ret}
    (hl : len ≤ mem.length) (hw : len < 2^32) (h : doUserAuthRequest E a mem len = .ret r j a') :
    (a'.clientState = a.clientState ∧ (∃ l, a'.log = a.log ++ l ∧ ∀ e ∈ l, Offer e) ∧
      (Spec.Auth.failures a'.log = Spec.Auth.failures a.log ∨ ∀ user, Eff false user a r a')) ∨
    (∃ user service method i3 a2, msgFrom mem len 0 = Spec.Wire.encString user ++
        (Spec.Wire.encString service ++ (Spec.Wire.encString method ++ msgFrom mem len i3)) ∧
      user.length < 4294967296 ∧ service.length < 4294967296 ∧ method.length < 4294967296 ∧
      nameToId E.table service = ID_SERVICE_CONNECTION ∧
      a2.clientState = a.clientState ∧ a2.sessionId = a.sessionId ∧ a2.log = a.log ∧
      a2.authRequests = add32 a.authRequests 1 ∧ a2.maxAuthAttempts = a.maxAuthAttempts ∧
      (a2.authFailures = a.authFailures ∨
        (a2.authFailures = add32 a.authFailures 1 ∧ a2.authFailures < a.maxAuthAttempts)) ∧
      dispatchMethod E a2 user mem len i3 (nameToId E.table method) = .ret r j a') := by
  unfold doUserAuthRequest at h
  split at h
  · cases h; exact .inl ⟨rfl, ⟨[], by simp, by simp⟩, .inl rfl⟩
  · split at h
    · cases h
    · cases h; exact .inl ⟨rfl, ⟨[], by simp, by simp⟩, .inl rfl⟩
    · rename_i h1
      obtain ⟨user, d1, _, _, n1, l1, e1⟩ := read_string hl hw h1
      split at h
      · cases h
      · cases h; exact .inl ⟨rfl, ⟨[], by simp, by simp⟩, .inl rfl⟩
      · rename_i h2
        obtain ⟨service, d2, _, _, n2, l2, e2⟩ := read_string hl hw h2
        rw [d1, d2] at h
        simp only at h
        split at h
        · cases h
          exact .inl ⟨failCount_client E a false true, failCount_offer E a false true,
            .inr (fun user => failCount_eff E user a false rfl)⟩
        · rename_i hsvc
          split at h
          · cases h
          · cases h; exact .inl ⟨rfl, ⟨[], by simp, by simp⟩, .inl rfl⟩
          · rename_i i3 h3
            obtain ⟨method, d3, _, _, n3, l3, e3⟩ := read_string hl hw h3
            rw [d3] at h
            simp only at h
            have hshape : msgFrom mem len 0 = Spec.Wire.encString user ++
                (Spec.Wire.encString service ++ (Spec.Wire.encString method ++ msgFrom mem len i3)) := by
              rw [e1, e2, e3]
            split at h
            · rename_i hb
              cases h
              rcases bindUser_some hb with rfl | ⟨rfl, rfl⟩
              · exact .inl ⟨rfl, ⟨[], by simp, by simp⟩, .inl rfl⟩
              · exact .inl ⟨rfl, ⟨[_], rfl, by simp [Offer]⟩, .inl (by simp [Auth.note, Spec.Auth.failures])⟩
            · rename_i hb
              obtain ⟨hu, rfl⟩ := bindUser_none hb
              have hn1 : user.length < 4294967296 := by omega
              have hn2 : service.length < 4294967296 := by omega
              have hn3 : method.length < 4294967296 := by omega
              split at h
              · unfold countUserAuthFailure at h
                simp only at h
                by_cases hm : add32 a.authFailures 1 ≥ a.maxAuthAttempts
                · simp only [if_pos hm] at h
                  cases h
                  exact .inl ⟨rfl, ⟨[_], rfl, by simp [Offer]⟩, .inl (by simp [Auth.note, Spec.Auth.failures])⟩
                · simp only [if_neg hm] at h
                  refine .inr ⟨user, service, method, i3, _, hshape, hn1, hn2, hn3,
                    Classical.not_not.1 hsvc, ?_, ?_, ?_, ?_, ?_, .inr ⟨?_, ?_⟩, h⟩ <;>
                    first | rfl | exact Nat.lt_of_not_le hm
              · refine .inr ⟨user, service, method, i3, _, hshape, hn1, hn2, hn3,
                  Classical.not_not.1 hsvc, ?_, ?_, ?_, ?_, ?_, .inl ?_, h⟩ <;> rfl

end Wolf.UserAuth
