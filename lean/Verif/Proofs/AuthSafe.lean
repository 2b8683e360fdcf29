import Verif.Proofs.Session
import Verif.Props.Wire
import Verif.Proofs.OsshCert
/-! The authentication handlers perform no undefined behaviour on a payload inside its buffer. -/

namespace Wolf.UserAuth
open Wolf Wolf.Wire Wolf.NameList Props.Wire

theorem getBoolean_ne_ub {mem : Bytes} {len idx : Nat} (hl : len ≤ mem.length) (hw : len < 2^32) :
    getBoolean mem len idx ≠ .ub := by
  have := C01_getBoolean mem len idx hl hw
  intro h; rw [h] at this; exact this

theorem getUint32_ne_ub {mem : Bytes} {len idx : Nat} (hl : len ≤ mem.length) (hw : len < 2^32) :
    getUint32 mem len idx ≠ .ub := by
  have := C01_getUint32 mem len idx hl hw
  intro h; rw [h] at this; exact this

theorem getStringRef_ne_ub {mem : Bytes} {len idx : Nat} (hl : len ≤ mem.length) (hw : len < 2^32) :
    getStringRef mem len idx ≠ .ub := by
  have := C01_getStringRef mem len idx hl hw
  intro h; rw [h] at this; exact this

theorem getStringAlloc_ne_ub {mem : Bytes} {len idx : Nat} (hl : len ≤ mem.length) (hw : len < 2^32) :
    getStringAlloc mem len idx ≠ .ub := by
  have := C01_getStringAlloc mem len idx hl hw
  intro h; rw [h] at this; exact this

theorem deref_ne_none {mem : Bytes} {len idx i : Nat} {r : StrRef} (hl : len ≤ mem.length)
    (hw : len < 2^32) (h : getStringRef mem len idx = .ok r i) : deref mem r ≠ none := by
  have := C01_getStringRef mem len idx hl hw
  rw [h] at this
  obtain ⟨_, s, hs, _⟩ := this
  rw [hs]; simp

/-- A reference handed out by the reader lies in its buffer. -/
theorem view_len {mem : Bytes} {len idx i : Nat} {r : StrRef} (hl : len ≤ mem.length)
    (hw : len < 2^32) (h : getStringRef mem len idx = .ok r i) :
    r.sz ≤ (view mem r).length ∧ r.sz < 2^32 ∧ r.sz + 4 ≤ len := by
  have := C01_getStringRef mem len idx hl hw
  rw [h] at this
  obtain ⟨hi, s, hs, hi', _⟩ := this
  unfold deref at hs
  split at hs
  · rename_i hn
    split at hs
    · simp only [view, hn, List.length_nil]; omega
    · cases hs
  · rename_i o hn
    split at hs
    · simp only [Option.some.injEq] at hs
      subst hs
      simp only [view, hn, List.length_drop]
      simp only [List.length_take, List.length_drop] at hi'
      have : r.sz ≤ mem.length - o := by omega
      omega
    · cases hs

theorem getResponses_ne_ub {mem : Bytes} {len : Nat} (hl : len ≤ mem.length) (hw : len < 2^32)
    (n idx : Nat) : getResponses mem len n idx ≠ .ub := by
  induction n generalizing idx with
  | zero => simp [getResponses]
  | succ n ih =>
    unfold getResponses
    split
    · rename_i h; exact absurd h (getStringRef_ne_ub hl hw)
    · simp
    · rename_i h1
      split
      · rename_i h; exact absurd h (deref_ne_none hl hw h1)
      · split
        · rename_i h; exact absurd h (ih _)
        · simp
        · simp

theorem infoResponse_ne_ub (E : Env) (a : Auth) {mem : Bytes} {len idx : Nat}
    (hl : len ≤ mem.length) (hw : len < 2^32) : doUserAuthInfoResponse E a mem len idx ≠ .ub := by
  unfold doUserAuthInfoResponse
  split
  · simp
  · split
    · simp
    · simp only
      split
      · rename_i h; exact absurd h (getUint32_ne_ub hl hw)
      · simp
      · split
        · simp
        · split
          · rename_i h; exact absurd h (getResponses_ne_ub hl hw _ _)
          · simp
          · split
            · simp
            · simp

theorem password_ne_ub (E : Env) (a : Auth) (user : Bytes) {mem : Bytes} {len idx : Nat}
    (hl : len ≤ mem.length) (hw : len < 2^32) :
    doUserAuthRequestPassword E a user mem len idx ≠ .ub := by
  unfold doUserAuthRequestPassword
  split
  · rename_i h; exact absurd h (getBoolean_ne_ub hl hw)
  · simp
  · split
    · rename_i h; exact absurd h (getStringRef_ne_ub hl hw)
    · simp
    · rename_i h
      split
      · split
        · rename_i h; exact absurd h (getStringRef_ne_ub hl hw)
        · simp
        · simp
      · split
        · simp
        · split
          · rename_i hd; exact absurd hd (deref_ne_none hl hw h)
          · simp

theorem leadsWith_ne_none {blob name : Bytes} {sz : Nat} (hl : sz ≤ blob.length) (hw : sz < 2^32) :
    leadsWith blob sz name ≠ none := by
  unfold leadsWith
  split
  · rename_i h; exact absurd h (getStringRef_ne_ub hl hw)
  · simp
  · rename_i h
    have := deref_ne_none hl hw h
    simpa using this

theorem verifySig_ne_none (E : Env) (id : Nat) (algo : Bytes) {km sm : Bytes} {ks ss : Nat}
    (data : Bytes) (h1 : ks ≤ km.length) (h2 : ks < 2^32) (h3 : ss ≤ sm.length) (h4 : ss < 2^32) :
    verifySig E id algo km ks sm ss data ≠ none := by
  unfold verifySig
  simp only
  split
  · split
    · rename_i h; exact absurd h (leadsWith_ne_none h1 h2)
    · simp
    · split
      · rename_i h; exact absurd h (leadsWith_ne_none h3 h4)
      · simp
      · simp
  · simp

/-- Both strings of a parsed body lie in the payload, and the signature leaves room for the
subtraction that computes the length of the signed bytes. -/
structure BodyOk (mem : Bytes) (len : Nat) (b : PkBody) : Prop where
  algo : deref mem b.algo ≠ none
  blob : deref mem b.blob ≠ none
  sig : deref mem b.sig ≠ none
  blobV : b.blob.sz ≤ (view mem b.blob).length ∧ b.blob.sz < 2^32
  sigV : b.sig.sz ≤ (view mem b.sig).length ∧ b.sig.sz < 2^32
  sigFits : b.hasSig = true → b.sig.sz + 4 ≤ len

theorem parsePk_ne_ub {mem : Bytes} {len idx : Nat} (hl : len ≤ mem.length) (hw : len < 2^32) :
    parsePk mem len idx ≠ .ub := by
  unfold parsePk
  split
  · rename_i h; exact absurd h (getBoolean_ne_ub hl hw)
  · simp
  · split
    · rename_i h; exact absurd h (getStringRef_ne_ub hl hw)
    · simp
    · split
      · rename_i h; exact absurd h (getStringRef_ne_ub hl hw)
      · simp
      · split
        · split
          · rename_i h; exact absurd h (getStringRef_ne_ub hl hw)
          · simp
          · simp
        · simp

theorem parsePk_ok {mem : Bytes} {len idx i : Nat} {b : PkBody} (hl : len ≤ mem.length)
    (hw : len < 2^32) (h : parsePk mem len idx = .ok b i) : BodyOk mem len b := by
  unfold parsePk at h
  split at h
  · cases h
  · cases h
  · split at h
    · cases h
    · cases h
    · rename_i h1
      split at h
      · cases h
      · cases h
      · rename_i h2
        have v2 := view_len hl hw h2
        split at h
        · split at h
          · cases h
          · cases h
          · rename_i h3
            cases h
            have v3 := view_len hl hw h3
            exact ⟨deref_ne_none hl hw h1, deref_ne_none hl hw h2, deref_ne_none hl hw h3,
              ⟨v2.1, v2.2.1⟩, ⟨v3.1, v3.2.1⟩, fun _ => v3.2.2⟩
        · cases h
          refine ⟨deref_ne_none hl hw h1, deref_ne_none hl hw h2, ?_, ⟨v2.1, v2.2.1⟩, ?_, ?_⟩
          · simp [deref]
          · simp [view]
          · intro h; cases h

theorem parsePkInner_ne_ub {mem : Bytes} {len : Nat} {b : PkBody} (hb : BodyOk mem len b) :
    parsePkInner mem b ≠ .ub := by
  unfold parsePkInner
  split
  · rename_i h; exact absurd h (getStringRef_ne_ub hb.blobV.1 hb.blobV.2)
  · simp
  · split
    · split
      · rename_i h; exact absurd h (getStringRef_ne_ub hb.sigV.1 hb.sigV.2)
      · simp
      · split
        · rename_i h; exact absurd h (getStringRef_ne_ub hb.sigV.1 hb.sigV.2)
        · simp
        · simp
    · simp

/-- The memory of the key in question is as large as claimed. -/
structure SubjectOk (s : Subject) : Prop where
  len : s.sz ≤ s.mem.length
  small : s.sz < 2 ^ 32

theorem pkVerify_ne_none (E : Env) (a : Auth) (user : Bytes) {mem : Bytes} {len : Nat} {s : Subject}
    {b : PkBody} (sig : Bytes) (p : Bool) (hs : SubjectOk s) (hb : BodyOk mem len b) :
    pkVerify E a user mem len s b sig p ≠ none := by
  unfold pkVerify
  simp only
  split
  · rename_i h
    exact absurd h (verifySig_ne_none E s.id s.algo _ hs.len hs.small hb.sigV.1 hb.sigV.2)
  · split
    · simp
    · split
      · simp
      · split <;> simp

theorem sigName_ne_none {mem : Bytes} {len : Nat} {b : PkBody} (hb : BodyOk mem len b)
    {i : Nat} (h : parsePkInner mem b = .ok () i) : sigName mem b ≠ none := by
  unfold parsePkInner at h
  unfold sigName
  split at h
  · cases h
  · cases h
  · split
    · rename_i hs
      rw [if_pos hs] at h
      cases hg : getStringRef (view mem b.sig) b.sig.sz 0 with
      | ub => rw [hg] at h; cases h
      | err e i => rw [hg] at h; cases h
      | ok r i =>
        simp only
        have := deref_ne_none hb.sigV.1 hb.sigV.2 hg
        cases hd : deref (view mem b.sig) r with
        | none => exact absurd hd this
        | some x => simp
    · simp

theorem isCertId_iff (id : Nat) : OsshCert.isCertId id = true ↔ ∃ alg, id = Proofs.Ossh.certId alg := by
  unfold OsshCert.isCertId
  simp only [Bool.or_eq_true, beq_iff_eq]
  constructor
  · rintro ((((h | h) | h) | h) | h)
    · exact ⟨.rsa, h⟩
    · exact ⟨.ecdsa256, h⟩
    · exact ⟨.ecdsa384, h⟩
    · exact ⟨.ecdsa521, h⟩
    · exact ⟨.ed25519, h⟩
  · rintro ⟨alg, rfl⟩
    cases alg <;> decide

/-- The key in question is the offered one, or the one an acceptable certificate certifies. -/
theorem subject_spec (E : Env) {mem : Bytes} {len : Nat} {b : PkBody} (hb : BodyOk mem len b) (id : Nat)
    (algo key : Bytes) (s : Subject)
    (h : pkSubject E mem b id algo key = .key s) :
    SubjectOk s ∧
      ((s = ⟨id, algo, view mem b.blob, b.blob.sz, key, none⟩) ∨
       ∃ K alg c opts sa, E.ossh = some K ∧ id = Proofs.Ossh.certId alg ∧ sigName mem b = some sa ∧
        Spec.OsshCert.WellFormed alg c ∧
        (view mem b.blob).take b.blob.sz = Spec.OsshCert.encode c ∧
        Spec.OsshCert.Acceptable (Spec.OsshCert.judge K) c opts ∧ s.key = Spec.OsshCert.plainKey alg c ∧
        s.mem.take s.sz = s.key ∧
        Proofs.Ossh.keyTypeOf alg sa = some (s.id, s.algo) ∧
        ∃ sh, s.cert = some sh ∧ Spec.OsshCert.shows alg c opts s.algo sh) := by
  have plain : SubjectOk ⟨id, algo, view mem b.blob, b.blob.sz, key, none⟩ := ⟨hb.blobV.1, hb.blobV.2⟩
  unfold pkSubject at h
  split at h
  · cases h; exact ⟨plain, .inl rfl⟩
  · rename_i K hK
    split at h
    · rename_i hid
      obtain ⟨alg, rfl⟩ := (isCertId_iff id).1 hid
      split at h
      · cases h
      · rename_i sa hsa
        split at h
        · cases h
        · cases h
        · rename_i sid sh hst
          cases h
          obtain ⟨c, opts, kt, h1, h2, h3, h4, h5⟩ := (Proofs.Ossh.step_iff K alg _ _ hb.blobV.1 hb.blobV.2 sa sid sh).1 hst
          have hk : sh.key = Spec.OsshCert.plainKey alg c := by rw [h5]; rfl
          have hkt : sh.keyType = kt := by rw [h5]; rfl
          have hlen : sh.key.length < 2 ^ 32 := by
            rw [hk]
            have hl : (Spec.OsshCert.encode c).length = b.blob.sz := by
              rw [← h2, List.length_take, Nat.min_eq_left hb.blobV.1]
            have hsm := hb.blobV.2
            rw [← hl] at hsm
            simp only [Spec.OsshCert.encode, Spec.OsshCert.body, Spec.OsshCert.plainKey, List.length_append,
              Proofs.Ossh.enc_length] at hsm ⊢
            have : (Spec.OsshCert.keyName alg).length ≤ c.typeName.length := by
              have := h1.name
              cases alg <;>
                simp only [Spec.OsshCert.certNames, List.mem_cons, List.not_mem_nil, or_false] at this
              · rcases this with h | h | h <;> rw [h] <;> decide +kernel
              all_goals rw [this]; decide +kernel
            omega
          refine ⟨⟨Nat.le_refl _, hlen⟩, .inr ⟨K, alg, c, opts, sa, hK, rfl, hsa, h1, h2, h3, hk, by simp, ?_, sh, rfl, ?_⟩⟩
          · rw [hkt]; exact h4
          · rw [hkt]; exact (Proofs.Ossh.shownOf_shows _ _ _ _ _).1 h5
    · cases h; exact ⟨plain, .inl rfl⟩

theorem pkSubject_ne_ub (E : Env) {mem : Bytes} {len : Nat} {b : PkBody} (hb : BodyOk mem len b) (id : Nat)
    (algo key : Bytes) {i : Nat} (hi : parsePkInner mem b = .ok () i) : pkSubject E mem b id algo key ≠ .ub := by
  unfold pkSubject
  split
  · simp
  · split
    · split
      · rename_i h; exact absurd h (sigName_ne_none hb hi)
      · split
        · rename_i h; exact absurd h (Proofs.Ossh.step_ne_ub _ _ _ _ hb.blobV.1 hb.blobV.2 _)
        · simp
        · simp
    · simp

theorem pkAnswer_ne_ub (E : Env) (a : Auth) (user : Bytes) {mem : Bytes} {len : Nat} (idx : Nat) {s : Subject}
    {b : PkBody} (algo key sig : Bytes) (hs : SubjectOk s) (hb : BodyOk mem len b) :
    pkAnswer E a user mem len idx s b algo key sig ≠ .ub := by
  unfold pkAnswer
  split
  · simp
  · simp only
    split
    · simp
    · simp
    · split
      · split
        · rename_i h; exact absurd h (pkVerify_ne_none E _ _ _ _ hs hb)
        · simp
      · simp
    · split
      · split
        · rename_i h; exact absurd h (pkVerify_ne_none E _ _ _ _ hs hb)
        · simp
      · simp
    · simp

theorem publicKey_ne_ub (E : Env) (a : Auth) (user : Bytes) {mem : Bytes} {len idx : Nat}
    (hl : len ≤ mem.length) (hw : len < 2^32) :
    doUserAuthRequestPublicKey E a user mem len idx ≠ .ub := by
  unfold doUserAuthRequestPublicKey
  split
  · rename_i h; exact absurd h (parsePk_ne_ub hl hw)
  · simp
  · rename_i b _ h
    have hb := parsePk_ok hl hw h
    split
    · rename_i h; exact absurd h (parsePkInner_ne_ub hb)
    · simp
    · rename_i hi
      split
      · rename_i algo key sig _ hk _
        simp only
        split
        · simp
        · split
          · rename_i h; exact absurd h (pkSubject_ne_ub E hb _ _ _ hi)
          · simp
          · rename_i s hs
            exact pkAnswer_ne_ub E a user _ _ _ _ (subject_spec E hb _ _ _ s hs).1 hb
      · rename_i hn
        exfalso
        have h1 := hb.algo
        have h2 := hb.blob
        have h3 := hb.sig
        cases e1 : deref mem b.algo with
        | none => exact h1 e1
        | some x =>
          cases e2 : deref mem b.blob with
          | none => exact h2 e2
          | some y =>
            cases e3 : deref mem b.sig with
            | none => exact h3 e3
            | some z => exact hn x y z e1 e2 e3

theorem dispatch_ne_ub (E : Env) (a : Auth) (user : Bytes) {mem : Bytes} {len idx id : Nat}
    (hl : len ≤ mem.length) (hw : len < 2^32) : dispatchMethod E a user mem len idx id ≠ .ub := by
  unfold dispatchMethod
  split
  · exact password_ne_ub E a user hl hw
  · split
    · simp
    · split
      · exact publicKey_ne_ub E a user hl hw
      · simp

theorem request_ne_ub (E : Env) (a : Auth) {mem : Bytes} {len : Nat}
    (hl : len ≤ mem.length) (hw : len < 2^32) : doUserAuthRequest E a mem len ≠ .ub := by
  unfold doUserAuthRequest
  split
  · simp
  · split
    · rename_i h; exact absurd h (getStringRef_ne_ub hl hw)
    · simp
    · rename_i h1
      split
      · rename_i h; exact absurd h (getStringRef_ne_ub hl hw)
      · simp
      · rename_i h2
        split
        · split
          · simp
          · split
            · rename_i h; exact absurd h (getStringRef_ne_ub hl hw)
            · simp
            · rename_i h3
              split
              · rename_i h; exact absurd h (deref_ne_none hl hw h3)
              · split
                · simp
                · simp only
                  split
                  · split
                    · simp
                    · exact dispatch_ne_ub _ _ _ hl hw
                  · exact dispatch_ne_ub _ _ _ hl hw
        · rename_i hn
          exfalso
          have n1 := deref_ne_none hl hw h1
          have n2 := deref_ne_none hl hw h2
          obtain ⟨x, e1⟩ := Option.ne_none_iff_exists'.1 n1
          obtain ⟨y, e2⟩ := Option.ne_none_iff_exists'.1 n2
          exact hn x y e1 e2

end Wolf.UserAuth

namespace Wolf.Session
open Wolf Wolf.Wire Wolf.UserAuth Wolf.MsgFilter Props.Wire

theorem service_ne_none (a : Auth) {mem : Bytes} {len : Nat} (hl : len ≤ mem.length)
    (hw : len < 2^32) : doServiceRequest a mem len ≠ none := by
  unfold doServiceRequest
  have := C01_getString 33 mem len 0 hl hw (by decide)
  split
  · rename_i h; rw [h] at this; exact absurd this (fun h => h)
  · simp
  · split <;> simp

theorem doPacket_ne_none (s : Srv) (e : RecvEnv) (p : Pkt) (hw : p.payload.length < 2^32) :
    doPacket s e p ≠ none := by
  have hl : p.payload.length ≤ (p.payload ++ p.pad).length := by simp
  have hd : ∀ s, dispatch s e p ≠ none := by
    intro s
    unfold dispatch
    simp only
    split
    · have := service_ne_none s.a hl hw
      simpa using this
    · split
      · split
        · rename_i h; exact absurd h (request_ne_ub _ _ hl hw)
        · simp
      · split
        · split
          · rename_i h; exact absurd h (infoResponse_ne_ub _ _ hl hw)
          · simp
        · split
          · simp
          · split <;> simp
  unfold doPacket
  split
  · simp
  · simp only
    split
    · rename_i h; exact absurd h (hd _)
    · split
      · simp
      · split <;> simp

theorem doReceive_ne_none (s : Srv) (e : RecvEnv) (hw : e.pkt.payload.length < 2^32)
    (hc : ∀ p, s.cur = some p → p.payload.length < 2^32) : doReceive s e ≠ none := by
  unfold doReceive
  simp only
  split
  · rename_i p hp
    split
    · rename_i h; exact absurd h (doPacket_ne_none s e p (hc p hp))
    · simp
  · split
    · simp
    · split
      · rename_i h; exact absurd h (doPacket_ne_none s e _ hw)
      · simp

end Wolf.Session
