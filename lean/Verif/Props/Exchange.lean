import Verif.Proofs.Exchange
/-!
# C47 - C51: exchange hash, host authentication, session identifier, agreement
-/

namespace Props.Exchange
open Wolf Wolf.Wire Wolf.Kdf Wolf.Gex Wolf.KexDh Wolf.NameList Spec.Wire Spec.Exchange Spec.Kdf Props.Wire Props.Kdf Proofs.Exchange

/-- A value as it stands in the hash and on the wire. -/
def wireOf (mp : Bool) (v : Bytes) : Bytes := if mp then mpintBytes v 0 else v

theorem onWire (mp : Bool) (v : Bytes) :
    mpintOnWire (asMpint mp v) = encString (wireOf mp v) ∧
    List.replicate (asMpint mp v).2 0 ++ (asMpint mp v).1 = wireOf mp v ∧
    c32toa ((asMpint mp v).1.length + (asMpint mp v).2) ++ List.replicate (asMpint mp v).2 0 ++ (asMpint mp v).1 = encString (wireOf mp v) := by
  have h2 : List.replicate (asMpint mp v).2 0 ++ (asMpint mp v).1 = wireOf mp v := by
    unfold asMpint wireOf mpintBytes
    cases mp <;> simp
  have h3 : (asMpint mp v).1.length + (asMpint mp v).2 = (wireOf mp v).length := by
    rw [← h2, List.length_append, List.length_replicate]; omega
  have h4 : c32toa ((asMpint mp v).1.length + (asMpint mp v).2) ++ List.replicate (asMpint mp v).2 0 ++ (asMpint mp v).1 = encString (wireOf mp v) := by
    rw [h3, List.append_assoc, h2, encString_eq]
  exact ⟨h4, h2, h4⟩

theorem canonical_wireOf (v : Bytes) : CanonicalMpint (wireOf true v) (beNat v) := by
  by_cases h : v = []
  · subst h
    refine ⟨rfl, ?_, ?_⟩ <;> simp [wireOf, mpintBytes, createMpint]
  · exact (C03_canonical v 0 h).1

theorem isSecret_wireOf (alg : Alg) (v : Bytes) : IsSecret alg v (wireOf (!alg.useMlKem) v) := by
  unfold IsSecret
  cases alg <;> first | exact canonical_wireOf v | simp [wireOf, Alg.useMlKem]

theorem secret_hashed (mp : Bool) (v : Bytes) (h : v.length + 1 < 2 ^ 32) :
    secretBytes (asMpint mp v).1 mp = encString (wireOf mp v) := by
  by_cases hv : v = []
  · subst hv
    cases mp <;> rfl
  · cases mp with
    | false => exact (C33_secret v hv h).2
    | true =>
      obtain ⟨m, h1, h2⟩ := (C33_secret v hv h).1
      rw [show (asMpint true v) = createMpint v 0 from rfl, h2, canonical_unique m (wireOf true v) _ h1 (canonical_wireOf v)]

/-! ## The beginning of the hash -/

/-- C47, the part both sides hash when the peer's `SSH_MSG_KEXINIT` arrives: the two identification strings without their line
ends and the two messages with their numbers, client's first. -/
theorem C47_start (vc vs ic is : Bytes) :
    kexInitHash false (encString vs) (vc ++ [13, 10]) (savedKexInit (20 :: ic)) is =
      encString vc ++ encString vs ++ encString (20 :: ic) ++ encString (20 :: is) ∧
    kexInitHash true (encString vc) (vs ++ [13, 10]) (savedKexInit (20 :: is)) ic =
      encString vc ++ encString vs ++ encString (20 :: ic) ++ encString (20 :: is) := by
  have hid : ∀ v : Bytes, (v ++ [13, 10]).length - 2 = v.length := by intro v; simp
  have htk : ∀ v : Bytes, (v ++ [13, 10]).take v.length = v := by intro v; simp
  constructor
  · simp only [kexInitHash, savedKexInit, hid, htk, encString_eq, Bool.false_eq_true, if_false, List.length_cons, List.append_assoc,
      List.nil_append, List.cons_append, List.append_nil]
  · simp only [kexInitHash, savedKexInit, hid, htk, encString_eq, if_true, List.length_cons, List.append_assoc,
      List.nil_append, List.cons_append]

/-! ## The client -/

/-- The group exchange values of the client. -/
def clientGroup (st : St) : Option Group :=
  if st.alg = .dhGex then
    match st.gex.prime, st.gex.generator with
    | some p, some g => some ⟨st.gex.min, st.gex.preferred, st.gex.max, signPad p ++ p, signPad g ++ g⟩
    | _, _ => none
  else none

theorem padded_eq (p : Bytes) : padded p = encString (signPad p ++ p) := by
  unfold padded
  rw [encString_eq, List.length_append, List.append_assoc, Nat.add_comm]

theorem clientGex_ok {st : St} {g : Bytes} (h : clientGexBytes st = .ok g) : g = encGroup (clientGroup st) := by
  unfold clientGexBytes at h
  unfold clientGroup
  split at h
  · rename_i ha
    rw [if_pos ha]
    split at h
    · rename_i p q hp hq
      simp only [Except.ok.injEq] at h
      rw [← h, hp, hq]
      simp only [encGroup, hashedClient, c32toa_eq, padded_eq]
    · cases h
  · rename_i ha
    rw [if_neg ha]
    simp only [Except.ok.injEq] at h
    rw [← h]; rfl

/-- The server is authenticated: the message is a host key, a public value and a signature; the application accepted
that host key; `H` is the hash of what was hashed before (`prev`), that host key, the group exchange values, our public value, the
server's, and the secret agreed with it; and the signature in the message verifies over `H`, under the key in that blob and the negotiated
signature name. -/
inductive Authenticated (E : ClientEnv) (st : St) (msg : Bytes) (out : Out) : Prop
  | intro (prev blob f sig rest secret content : Bytes) (pk : PubKey) (s : Sig) (accept : Bytes → Bool)
    (hprev : st.hash = some prev)
    (hmsg : msg = encString blob ++ encString f ++ encString sig ++ rest)
    (hcb : E.check = some accept) (hacc : accept blob = true) (hshown : out.shown = some blob)
    (hkey : KeyBlob E.host blob pk) (himp : E.imports pk = true)
    (hagree : E.agree f = some secret) (hsec : IsSecret st.alg secret content)
    (hH : E.H.run (prev ++ encString blob ++ encGroup (clientGroup st) ++ encString st.e ++ encString f ++ encString content) = some out.st.h)
    (hsig : SigBlock E.host sig s) (hver : E.verify pk out.st.h s = true)
    (hkeys : out.newKeys = true → out.ret = none ∧
      Six (hashOf E.H) (encString content) out.st.h out.st.sid (ivOf out.st.keys) (encOf out.st.keys) (macOf out.st.keys)
        (ivOf out.st.peerKeys) (encOf out.st.peerKeys) (macOf out.st.peerKeys))

/-- Nothing was installed. -/
def Untouched (st : St) (out : Out) : Prop :=
  out.newKeys = false ∧ out.st.keys = st.keys ∧ out.st.peerKeys = st.peerKeys ∧ out.st.expectNewKeys = st.expectNewKeys

theorem C48_authenticated (E : ClientEnv) (st : St) (buf : Bytes) (len idx : Nat) (hl : len ≤ buf.length) (hw : len < 2 ^ 32)
    (hi : idx + 8 < 2 ^ 32) (hk : Fits st.keys) (hp : Fits st.peerKeys)
    (hsz : ∀ f k, E.agree f = some k → k.length + 1 < 2 ^ 32) :
    ∃ out, doKexDhReply E st buf len idx = some out ∧
      (Untouched st out ∨ Authenticated E st (msgFrom buf len idx) out) := by
  unfold doKexDhReply
  by_cases h0 : len = 0
  · rw [if_pos h0]; exact ⟨_, rfl, .inl ⟨rfl, rfl, rfl, rfl⟩⟩
  rw [if_neg h0]
  by_cases hig : st.ignoreNext = true
  · rw [if_pos hig]; exact ⟨_, rfl, .inl ⟨rfl, rfl, rfl, rfl⟩⟩
  rw [if_neg hig]
  rcases key_spec buf len idx hl hw hi with ⟨blob, h1, h2, h3⟩ | ⟨e, h1, _⟩
  rotate_left
  · rw [h1]; exact ⟨_, rfl, .inl ⟨rfl, rfl, rfl, rfl⟩⟩
  rw [h1]
  dsimp only
  cases hcb : E.check with
  | none => exact ⟨_, rfl, .inl ⟨rfl, rfl, rfl, rfl⟩⟩
  | some accept =>
    dsimp only
    by_cases hacc : accept blob = true
    rotate_left
    · rw [if_neg hacc]; exact ⟨_, rfl, .inl ⟨rfl, rfl, rfl, rfl⟩⟩
    rw [if_pos hacc]
    unfold clientReply
    cases hprev : st.hash with
    | none => exact ⟨_, rfl, .inl ⟨rfl, rfl, rfl, rfl⟩⟩
    | some prev =>
      dsimp only
      cases hg : clientGexBytes st with
      | error e => exact ⟨_, rfl, .inl ⟨rfl, rfl, rfl, rfl⟩⟩
      | ok g =>
        dsimp only
        rcases field_spec buf len (idx + 4 + blob.length) hl hw with ⟨f, f1, f2, f3⟩ | ⟨e, f1, _⟩
        rotate_left
        · rw [f1]; exact ⟨_, rfl, .inl ⟨rfl, rfl, rfl, rfl⟩⟩
        rw [f1]
        dsimp only
        rcases field_spec buf len (idx + 4 + blob.length + 4 + f.length) hl hw with ⟨sig, s1, s2, s3⟩ | ⟨e, s1, _⟩
        rotate_left
        · rw [s1]; exact ⟨_, rfl, .inl ⟨rfl, rfl, rfl, rfl⟩⟩
        rw [s1]
        dsimp only
        unfold clientFinish
        rcases parse_sound E.host blob (by omega) with ⟨pk, p1, p2⟩ | ⟨er, p1⟩
        rotate_left
        · rw [p1]; exact ⟨_, rfl, .inl ⟨rfl, rfl, rfl, rfl⟩⟩
        rw [p1]
        dsimp only
        by_cases him : E.imports pk = false
        · rw [if_pos him]; exact ⟨_, rfl, .inl ⟨rfl, rfl, rfl, rfl⟩⟩
        rw [if_neg him]
        cases hag : E.agree f with
        | none => exact ⟨_, rfl, .inl ⟨rfl, rfl, rfl, rfl⟩⟩
        | some k0 =>
          dsimp only
          obtain ⟨w1, w2, w3⟩ := onWire (!st.alg.useMlKem) k0
          cases hrun : E.H.run (prev ++ encString blob ++ g ++ (c32toa st.e.length ++ st.e) ++ encString f ++
              mpintOnWire (asMpint (!st.alg.useMlKem) k0)) with
          | none => exact ⟨_, rfl, .inl ⟨rfl, rfl, rfl, rfl⟩⟩
          | some h =>
            dsimp only
            rcases checkSig_sound E pk h sig (by omega) with ⟨s, c1, c2, c3⟩ | ⟨er, c1⟩
            rotate_left
            · rw [c1]; exact ⟨_, rfl, .inl ⟨rfl, rfl, rfl, rfl⟩⟩
            rw [c1]
            dsimp only
            have hmsg : msgFrom buf len idx = encString blob ++ encString f ++ encString sig ++
                msgFrom buf len (idx + 4 + blob.length + 4 + f.length + 4 + sig.length) := by
              rw [h2, f2, s2]; simp only [List.append_assoc]
            have hrun' : E.H.run (prev ++ encString blob ++ encGroup (clientGroup st) ++ encString st.e ++ encString f ++
                encString (wireOf (!st.alg.useMlKem) k0)) = some h := by
              rw [← hrun, ← w1, clientGex_ok hg, encString_eq st.e]
            have hsb := secret_hashed (!st.alg.useMlKem) k0 (hsz f k0 hag)
            unfold clientKeys
            obtain ⟨r, ks', ps', k1, k2, k3, k4, k5, k6, k7⟩ := C33_keys E.H false st.keys st.peerKeys (asMpint (!st.alg.useMlKem) k0).1 h
              (if st.sid = [] then h else st.sid) (!st.alg.useMlKem) hk hp
            rw [k1]
            cases r with
            | some e =>
              refine ⟨_, rfl, .inr (.intro prev blob f sig _ k0 _ pk s accept hprev hmsg hcb hacc rfl p2 (by simpa using him) hag
                (isSecret_wireOf _ _) hrun' c2 c3 (by simp))⟩
            | none =>
              refine ⟨_, rfl, .inr (.intro prev blob f sig _ k0 _ pk s accept hprev hmsg hcb hacc rfl p2 (by simpa using him) hag
                (isSecret_wireOf _ _) hrun' c2 c3 ?_)⟩
              intro _
              have k6 := k6 rfl
              rw [hsb] at k6
              exact ⟨rfl, k6⟩

/-- C48, the callback: with none set, or when it refuses, the key exchange does not go on. -/
theorem C48_callback (E : ClientEnv) (st : St) (buf : Bytes) (len idx : Nat) (out : Out)
    (h : doKexDhReply E st buf len idx = some out) (hcb : ∀ accept, E.check = some accept → ∀ b, out.shown = some b → accept b = false) :
    out.newKeys = false ∧ out.st.keys = st.keys ∧ out.st.peerKeys = st.peerKeys ∧ (st.ignoreNext = false → out.ret ≠ none) := by
  unfold doKexDhReply at h
  split at h
  · simp only [Option.some.injEq] at h; subst h; simp
  · split at h
    · rename_i hig
      simp only [Option.some.injEq] at h; subst h; simp [hig]
    · split at h
      · cases h
      · simp only [Option.some.injEq] at h; subst h; simp
      · rename_i ks blob b heq
        split at h
        · simp only [Option.some.injEq] at h; subst h; simp
        · rename_i accept hc
          split at h
          · rename_i ha
            have hs : out.shown = some blob := by
              unfold clientReply at h
              split at h
              · simp only [Option.some.injEq] at h; subst h; rfl
              · split at h
                · simp only [Option.some.injEq] at h; subst h; rfl
                · split at h
                  · cases h
                  · simp only [Option.some.injEq] at h; subst h; rfl
                  · split at h
                    · cases h
                    · simp only [Option.some.injEq] at h; subst h; rfl
                    · unfold clientFinish at h
                      split at h
                      · cases h
                      · simp only [Option.some.injEq] at h; subst h; rfl
                      · split at h
                        · simp only [Option.some.injEq] at h; subst h; rfl
                        · split at h
                          · simp only [Option.some.injEq] at h; subst h; rfl
                          · dsimp only at h
                            split at h
                            · simp only [Option.some.injEq] at h; subst h; rfl
                            · split at h
                              · cases h
                              · simp only [Option.some.injEq] at h; subst h; rfl
                              · unfold clientKeys at h
                                split at h
                                · cases h
                                · simp only [Option.some.injEq] at h; subst h; rfl
                                · simp only [Option.some.injEq] at h; subst h; rfl
            have := hcb accept hc blob hs
            rw [ha] at this; cases this
          · simp only [Option.some.injEq] at h; subst h; simp

/-! ## The server -/

/-- The public host key as it is sent: RSA numbers as mpints. -/
def sentPk : PubKey → PubKey
  | .rsa e n => .rsa (mpintBytes e 0) (mpintBytes n 0)
  | pk => pk

/-- The blob of a host key. -/
def blobOf (a : HostAlg) : PubKey → Bytes
  | .rsa e n => encString a.fmtName ++ encString (mpintBytes e 0) ++ encString (mpintBytes n 0)
  | .ecc q => encString a.fmtName ++ encString a.curve ++ encString q
  | .raw q => encString a.fmtName ++ encString q

/-- The key is of the negotiated kind; except for RSA with SHA-2 the key format has the name of the algorithm. -/
def HostOk (a : HostAlg) (pk : PubKey) : Prop :=
  a.name ≠ [] ∧ a.curve ≠ [] ∧
  match pk with
  | .rsa _ _ => a.family = .rsa
  | .ecc _ => a.family = .ecc ∧ a.fmtName = a.name
  | .raw _ => ∃ named, a.family = .raw named ∧ a.fmtName = a.name

theorem onWire' (v : Bytes) : mpintOnWire (createMpint v 0) = encString (mpintBytes v 0) := (onWire true v).1

theorem keyBlock_eq (a : HostAlg) (pk : PubKey) : keyBlockSz a pk = (blobOf a pk).length := by
  cases pk with
  | rsa e n =>
    have he : (mpintBytes e 0).length = (createMpint e 0).2 + (createMpint e 0).1.length := by
      simp [mpintBytes]
    have hn : (mpintBytes n 0).length = (createMpint n 0).2 + (createMpint n 0).1.length := by
      simp [mpintBytes]
    simp only [keyBlockSz, blobOf, List.length_append, enc_length, he, hn]; omega
  | ecc q => simp only [keyBlockSz, blobOf, List.length_append, enc_length]; omega
  | raw q => simp only [keyBlockSz, blobOf, List.length_append, enc_length]; omega

/-- The host key that is hashed is the one that is sent. -/
theorem hashed_sent (a : HostAlg) (pk : PubKey) :
    hashedKey a pk = encString (blobOf a pk) ∧ sentKey a pk = encString (blobOf a pk) := by
  have hk := keyBlock_eq a pk
  constructor
  · unfold hashedKey
    rw [hk, encString_eq (blobOf a pk)]
    cases pk <;> simp only [blobOf, onWire', encString_eq a.fmtName, encString_eq a.curve, encString_eq (_ : Bytes), List.append_assoc]
  · unfold sentKey
    rw [hk, encString_eq (blobOf a pk)]
    cases pk with
    | rsa e n =>
      have := onWire' e
      have := onWire' n
      simp only [mpintOnWire] at *
      simp only [blobOf, ← this, ← onWire' e, encString_eq a.fmtName, mpintOnWire, List.append_assoc]
    | ecc q => simp only [blobOf, encString_eq, List.append_assoc]
    | raw q => simp only [blobOf, encString_eq, List.append_assoc]

theorem blob_key (a : HostAlg) (pk : PubKey) (h : HostOk a pk) : KeyBlob a (blobOf a pk) (sentPk pk) := by
  obtain ⟨_, _, h⟩ := h
  cases pk with
  | rsa e n => exact ⟨h, a.fmtName, [], by simp [blobOf]⟩
  | ecc q => exact ⟨h.1, [], by simp [blobOf, h.2]⟩
  | raw q =>
    obtain ⟨named, h1, h2⟩ := h
    exact ⟨named, a.fmtName, [], h1, fun _ => h2, by simp [blobOf]⟩

/-- The group exchange values of the server. -/
def serverGroup (E : ServerEnv) (st : St) : Option Group :=
  if st.alg = .dhGex then
    match gexGroup E.build st.gex with
    | .ok (p, g) => some ⟨st.gex.min, st.gex.preferred, st.gex.max, mpintBytes p 0, mpintBytes g 0⟩
    | .error _ => none
  else none

theorem serverGex_ok {E : ServerEnv} {st : St} {g : Bytes} (h : serverGexBytes E st = .ok g) : g = encGroup (serverGroup E st) := by
  unfold serverGexBytes at h
  unfold serverGroup
  split at h
  · rename_i ha
    rw [if_pos ha]
    split at h
    · rename_i p q hp
      simp only [Except.ok.injEq] at h
      rw [← h, hp]
      simp only [encGroup, hashedServer, c32toa_eq, onWire']
    · cases h
  · rename_i ha
    rw [if_neg ha]
    simp only [Except.ok.injEq] at h
    rw [← h]; rfl

/-- Whether the method sends its public values as mpints. -/
def clientMp (alg : Alg) : Bool := !alg.useMlKem && !alg.useCurve25519
def serverMp (alg : Alg) : Bool := alg.useDh || (alg.useEcdh && !alg.useMlKem)

/-- The reply of the server: `H` is the hash of what was hashed before, the host key, the group exchange values, the client's
public value, its own and the secret; the reply carries that host key, its public value and the signature of `H`, and the room asked for is
the room it takes. -/
inductive Replied (E : ServerEnv) (st : St) (msg : Bytes) (out : SOut) (sz : Nat) (payload : Bytes) : Prop
  | intro (prev e rest f secret content : Bytes) (pk : PubKey) (s : Sig)
    (hprev : st.hash = some prev)
    (hmsg : msg = encString e ++ rest) (he : e ≠ [] ∧ e.length ≤ E.eMax)
    (hkey : E.key = some pk) (hagree : E.agree e = some (f, secret)) (hsec : IsSecret st.alg secret content)
    (hH : E.H.run (prev ++ encString (blobOf E.host pk) ++ encGroup (serverGroup E st) ++ encString e ++
      encString (wireOf (serverMp st.alg) f) ++ encString content) = some out.st.h)
    (hsign : E.sign out.st.h = some s)
    (hpay : payload = [st.alg.replyMsg] ++ encString (blobOf E.host pk) ++ encString (wireOf (serverMp st.alg) f) ++
      encString (encString E.host.sigName ++ encString (sigContent s)))
    (hroom : sz = payload.length) (hret : out.ret = none)
    (hkeys : Six (hashOf E.H) (encString content) out.st.h out.st.sid (ivOf out.st.peerKeys) (encOf out.st.peerKeys) (macOf out.st.peerKeys)
        (ivOf out.st.keys) (encOf out.st.keys) (macOf out.st.keys))

theorem serverGroup_e (E : ServerEnv) (st : St) (e : Bytes) : serverGroup E { st with e := e } = serverGroup E st := rfl

theorem replyPayload_eq (E : ServerEnv) (alg : Alg) (pk : PubKey) (f sig : Bytes) :
    replyPayload E alg pk (asMpint (serverMp alg) f) sig =
      (([alg.replyMsg] ++ encString (blobOf E.host pk) ++ encString (wireOf (serverMp alg) f) ++
        encString (encString E.host.sigName ++ encString sig)).length,
       [alg.replyMsg] ++ encString (blobOf E.host pk) ++ encString (wireOf (serverMp alg) f) ++
        encString (encString E.host.sigName ++ encString sig)) := by
  obtain ⟨v1, v2, v3⟩ := onWire (serverMp alg) f
  unfold replyPayload
  dsimp only
  rw [(hashed_sent _ _).2, v3, keyBlock_eq]
  refine Prod.ext ?_ ?_
  · simp only [List.length_append, enc_length, ← v2, List.length_replicate, List.length_cons, List.length_nil]
    omega
  · dsimp only
    rw [encString_eq (encString E.host.sigName ++ encString sig), List.length_append, enc_length, enc_length,
      encString_eq E.host.sigName, encString_eq sig,
      show 4 * 2 + E.host.sigName.length + sig.length = E.host.sigName.length + 4 + (sig.length + 4) by omega]
    simp only [List.append_assoc]

theorem C47_server (E : ServerEnv) (st : St) (buf : Bytes) (len idx : Nat) (hl : len ≤ buf.length) (hw : len < 2 ^ 32)
    (hk : Fits st.keys) (hp : Fits st.peerKeys) (hsz : ∀ e f k, E.agree e = some (f, k) → k.length + 1 < 2 ^ 32) :
    ∃ out, doKexDhInit E st buf len idx = some out ∧
      ∀ sz payload, out.reply = some (sz, payload) → Replied E st (msgFrom buf len idx) out sz payload := by
  unfold doKexDhInit
  by_cases h0 : len = 0
  · rw [if_pos h0]; exact ⟨_, rfl, by simp⟩
  rw [if_neg h0]
  by_cases hig : st.ignoreNext = true
  · rw [if_pos hig]; exact ⟨_, rfl, by simp⟩
  rw [if_neg hig]
  rcases str_ref buf len idx hl hw with ⟨r, e, g1, g2, g3, g4, g5, g6, g7⟩ | ⟨i, g1, _⟩
  rotate_left
  · rw [g1]; exact ⟨_, rfl, by simp⟩
  rw [g1]
  dsimp only
  by_cases hesz : r.sz > E.eMax ∨ r.sz = 0
  · rw [if_pos hesz]; exact ⟨_, rfl, by simp⟩
  rw [if_neg hesz, g2]
  dsimp only
  unfold sendKexDhReply
  cases hkey : E.key with
  | none => exact ⟨_, rfl, by simp⟩
  | some pk =>
    dsimp only
    cases hprev : st.hash with
    | none => exact ⟨_, rfl, by simp⟩
    | some prev =>
      dsimp only
      generalize hg : serverGexBytes E _ = gg
      cases gg with
      | error er => exact ⟨_, rfl, by simp⟩
      | ok g =>
        dsimp only
        cases hag : E.agree e with
        | none => exact ⟨_, rfl, by simp⟩
        | some fk =>
          obtain ⟨f, k0⟩ := fk
          dsimp only
          obtain ⟨w1, w2, w3⟩ := onWire (!st.alg.useMlKem) k0
          obtain ⟨v1, v2, v3⟩ := onWire (serverMp st.alg) f
          cases hrun : E.H.run (prev ++ hashedKey E.host pk ++ g ++ (c32toa e.length ++ e) ++
              mpintOnWire (asMpint (st.alg.useDh || (st.alg.useEcdh && !st.alg.useMlKem)) f) ++
              mpintOnWire (asMpint (!st.alg.useMlKem) k0)) with
          | none => exact ⟨_, rfl, by simp⟩
          | some h =>
            dsimp only
            unfold serverFinish
            dsimp only
            cases hsg : E.sign h with
            | none => exact ⟨_, rfl, by simp⟩
            | some s =>
              dsimp only
              obtain ⟨r', ks', ps', k1, k2, k3, k4, k5, k6, k7⟩ := C33_keys E.H true st.keys st.peerKeys (asMpint (!st.alg.useMlKem) k0).1 h
                (if st.sid = [] then h else st.sid) (!st.alg.useMlKem) hk hp
              rw [k1]
              have hrun' : E.H.run (prev ++ encString (blobOf E.host pk) ++ encGroup (serverGroup E st) ++ encString e ++
                  encString (wireOf (serverMp st.alg) f) ++ encString (wireOf (!st.alg.useMlKem) k0)) = some h := by
                rw [← hrun, ← w1, ← v1, (hashed_sent _ _).1, serverGex_ok hg, encString_eq e]
                rfl
              have hsb := secret_hashed (!st.alg.useMlKem) k0 (hsz e f k0 hag)
              cases r' with
              | some er => exact ⟨_, rfl, by simp⟩
              | none =>
                refine ⟨_, rfl, fun sz payload hrep => ?_⟩
                simp only [Option.some.injEq] at hrep
                have k6 := k6 rfl
                rw [hsb] at k6
                have hpay := (congrArg Prod.snd hrep).symm.trans (congrArg Prod.snd (replyPayload_eq E st.alg pk f (sigContent s)))
                have hroom : sz = payload.length :=
                  ((congrArg Prod.fst hrep).symm.trans (congrArg Prod.fst (replyPayload_eq E st.alg pk f (sigContent s)))).trans
                    (congrArg List.length hpay.symm)
                refine .intro prev e _ f k0 _ pk s hprev g5 ⟨?_, by omega⟩ hkey hag (isSecret_wireOf _ _) hrun' hsg hpay hroom rfl k6
                intro he
                rw [he] at g4
                simp at g4
                omega

/-- C47 for a whole exchange: when the hash was started with the identification strings and `SSH_MSG_KEXINIT` messages of both sides, the
`H` the server signs is the one of the RFC. -/
theorem C47_server_hash (E : ServerEnv) (st : St) (buf : Bytes) (len idx : Nat) (vc vs ic is : Bytes)
    (hl : len ≤ buf.length) (hw : len < 2 ^ 32) (hk : Fits st.keys) (hp : Fits st.peerKeys)
    (hsz : ∀ e f k, E.agree e = some (f, k) → k.length + 1 < 2 ^ 32)
    (hst : st.hash = some (kexInitHash true (encString vc) (vs ++ [13, 10]) (savedKexInit (20 :: is)) ic)) :
    ∃ out, doKexDhInit E st buf len idx = some out ∧ ∀ sz payload, out.reply = some (sz, payload) →
      ∃ ks e f secret content sig rest, E.H.run (hashInput vc vs (20 :: ic) (20 :: is) ks (serverGroup E st) e f content) = some out.st.h ∧
        msgFrom buf len idx = encString e ++ rest ∧ (∃ f', E.agree e = some (f', secret)) ∧ IsSecret st.alg secret content ∧
        E.sign out.st.h = some sig ∧
        payload = [st.alg.replyMsg] ++ encString ks ++ encString f ++ encString (encString E.host.sigName ++ encString (sigContent sig)) := by
  obtain ⟨out, h1, h2⟩ := C47_server E st buf len idx hl hw hk hp hsz
  refine ⟨out, h1, fun sz payload hr => ?_⟩
  obtain ⟨prev, e, rest, f, secret, content, pk, s, a1, a2, a3, a4, a5, a6, a7, a8, a9, a10, a11, a12⟩ := h2 sz payload hr
  rw [hst, (C47_start vc vs ic is).2] at a1
  simp only [Option.some.injEq] at a1
  refine ⟨_, e, _, secret, content, s, rest, ?_, a2, ⟨f, a5⟩, a6, a8, a9⟩
  rw [← a1] at a7
  exact a7

/-- C47 for the client: the `H` whose signature it checks. -/
theorem C47_client_hash (E : ClientEnv) (st : St) (buf : Bytes) (len idx : Nat) (vc vs ic is : Bytes)
    (hl : len ≤ buf.length) (hw : len < 2 ^ 32) (hi : idx + 8 < 2 ^ 32) (hk : Fits st.keys) (hp : Fits st.peerKeys)
    (hsz : ∀ f k, E.agree f = some k → k.length + 1 < 2 ^ 32)
    (hst : st.hash = some (kexInitHash false (encString vs) (vc ++ [13, 10]) (savedKexInit (20 :: ic)) is)) :
    ∃ out, doKexDhReply E st buf len idx = some out ∧ (out.newKeys = true →
      ∃ ks f sig rest secret content pk s,
        E.H.run (hashInput vc vs (20 :: ic) (20 :: is) ks (clientGroup st) st.e f content) = some out.st.h ∧
        msgFrom buf len idx = encString ks ++ encString f ++ encString sig ++ rest ∧
        E.agree f = some secret ∧ IsSecret st.alg secret content ∧
        KeyBlob E.host ks pk ∧ SigBlock E.host sig s ∧ E.verify pk out.st.h s = true) := by
  obtain ⟨out, h1, h2⟩ := C48_authenticated E st buf len idx hl hw hi hk hp hsz
  refine ⟨out, h1, fun hn => ?_⟩
  rcases h2 with h2 | ⟨prev, blob, f, sig, rest, secret, content, pk, s, accept, a1, a2, a3, a4, a5, a6, a7, a8, a9, a10, a11, a12, a13⟩
  · rw [h2.1] at hn; cases hn
  · rw [hst, (C47_start vc vs ic is).1] at a1
    simp only [Option.some.injEq] at a1
    refine ⟨blob, f, sig, rest, secret, content, pk, s, ?_, a2, a8, a9, a6, a11, a12⟩
    rw [← a1] at a10
    exact a10

/-! ## The session identifier -/

theorem sid_client {E : ClientEnv} {st : St} {buf : Bytes} {len idx : Nat} {out : Out} (h : doKexDhReply E st buf len idx = some out) :
    out.st.sid = st.sid ∨ (st.sid = [] ∧ out.st.sid = out.st.h ∧ ∃ x, E.H.run x = some out.st.h) := by
  unfold doKexDhReply at h
  split at h
  · simp only [Option.some.injEq] at h; subst h; exact .inl rfl
  split at h
  · simp only [Option.some.injEq] at h; subst h; exact .inl rfl
  split at h
  · cases h
  · simp only [Option.some.injEq] at h; subst h; exact .inl rfl
  split at h
  · simp only [Option.some.injEq] at h; subst h; exact .inl rfl
  split at h
  rotate_left
  · simp only [Option.some.injEq] at h; subst h; exact .inl rfl
  unfold clientReply at h
  split at h
  · simp only [Option.some.injEq] at h; subst h; exact .inl rfl
  split at h
  · simp only [Option.some.injEq] at h; subst h; exact .inl rfl
  dsimp only at h
  split at h
  · cases h
  · simp only [Option.some.injEq] at h; subst h; exact .inl rfl
  split at h
  · cases h
  · simp only [Option.some.injEq] at h; subst h; exact .inl rfl
  unfold clientFinish at h
  split at h
  · cases h
  · simp only [Option.some.injEq] at h; subst h; exact .inl rfl
  split at h
  · simp only [Option.some.injEq] at h; subst h; exact .inl rfl
  split at h
  · simp only [Option.some.injEq] at h; subst h; exact .inl rfl
  dsimp only at h
  split at h
  · simp only [Option.some.injEq] at h; subst h; exact .inl rfl
  rename_i hh hrun
  have key : ∀ o : Out, o.st.sid = (if st.sid = [] then hh else st.sid) → o.st.h = hh →
      o.st.sid = st.sid ∨ (st.sid = [] ∧ o.st.sid = o.st.h ∧ ∃ x, E.H.run x = some o.st.h) := by
    intro o h1 h2
    by_cases hs : st.sid = []
    · rw [if_pos hs] at h1
      exact .inr ⟨hs, by rw [h1, h2], _, by rw [h2]; exact hrun⟩
    · rw [if_neg hs] at h1
      exact .inl h1
  split at h
  · cases h
  · simp only [Option.some.injEq] at h; subst h; exact key _ rfl rfl
  unfold clientKeys at h
  split at h
  · cases h
  · simp only [Option.some.injEq] at h; subst h; exact key _ rfl rfl
  · simp only [Option.some.injEq] at h; subst h; exact key _ rfl rfl

theorem sid_server {E : ServerEnv} {st : St} {buf : Bytes} {len idx : Nat} {out : SOut} (h : doKexDhInit E st buf len idx = some out) :
    out.st.sid = st.sid ∨ (st.sid = [] ∧ out.st.sid = out.st.h ∧ ∃ x, E.H.run x = some out.st.h) := by
  unfold doKexDhInit at h
  split at h
  · simp only [Option.some.injEq] at h; subst h; exact .inl rfl
  split at h
  · simp only [Option.some.injEq] at h; subst h; exact .inl rfl
  split at h
  · cases h
  · simp only [Option.some.injEq] at h; subst h; exact .inl rfl
  split at h
  · simp only [Option.some.injEq] at h; subst h; exact .inl rfl
  split at h
  · cases h
  unfold sendKexDhReply at h
  split at h
  · simp only [Option.some.injEq] at h; subst h; exact .inl rfl
  split at h
  · simp only [Option.some.injEq] at h; subst h; exact .inl rfl
  split at h
  · simp only [Option.some.injEq] at h; subst h; exact .inl rfl
  dsimp only at h
  split at h
  · simp only [Option.some.injEq] at h; subst h; exact .inl rfl
  split at h
  · simp only [Option.some.injEq] at h; subst h; exact .inl rfl
  rename_i hh hrun
  have key : ∀ o : SOut, o.st.sid = (if st.sid = [] then hh else st.sid) → o.st.h = hh →
      o.st.sid = st.sid ∨ (st.sid = [] ∧ o.st.sid = o.st.h ∧ ∃ x, E.H.run x = some o.st.h) := by
    intro o h1 h2
    by_cases hs : st.sid = []
    · rw [if_pos hs] at h1
      exact .inr ⟨hs, by rw [h1, h2], _, by rw [h2]; exact hrun⟩
    · rw [if_neg hs] at h1
      exact .inl h1
  unfold serverFinish at h
  split at h
  · simp only [Option.some.injEq] at h; subst h; exact key _ rfl rfl
  split at h
  · cases h
  · simp only [Option.some.injEq] at h; subst h; exact key _ rfl rfl
  · simp only [Option.some.injEq] at h; subst h; exact key _ rfl rfl

/-- What can happen to one side: it handles a reply or an init message with whatever surroundings; or anything else of the key exchange
happens (negotiation, a new hash, new sizes, a group), which leaves the session identifier and `H`. -/
inductive Ev where
  | reply (E : ClientEnv) (buf : Bytes) (len idx : Nat)
  | init (E : ServerEnv) (buf : Bytes) (len idx : Nat)
  | other (st : St)

/-- One step; `none` is undefined behaviour. -/
def stepEv (st : St) : Ev → Option St
  | .reply E buf len idx => (doKexDhReply E st buf len idx).map (·.st)
  | .init E buf len idx => (doKexDhInit E st buf len idx).map (·.st)
  | .other st' => some { st' with sid := st.sid, h := st.h }

def runEv : St → List Ev → Option St
  | st, [] => some st
  | st, ev :: evs => (stepEv st ev).bind (runEv · evs)

theorem step_sid {st st' : St} {ev : Ev} (h : stepEv st ev = some st') : st'.sid = st.sid ∨ (st.sid = [] ∧ st'.sid = st'.h) := by
  cases ev with
  | reply E buf len idx =>
    simp only [stepEv, Option.map_eq_some_iff] at h
    obtain ⟨o, h, rfl⟩ := h
    rcases sid_client h with h | ⟨h, h', _⟩
    · exact .inl h
    · exact .inr ⟨h, h'⟩
  | init E buf len idx =>
    simp only [stepEv, Option.map_eq_some_iff] at h
    obtain ⟨o, h, rfl⟩ := h
    rcases sid_server h with h | ⟨h, h', _⟩
    · exact .inl h
    · exact .inr ⟨h, h'⟩
  | other st1 =>
    simp only [stepEv, Option.some.injEq] at h
    rw [← h]; exact .inl rfl

/-- C49: once there is a session identifier, no history changes it, however many key exchanges follow and however they end. -/
theorem C49_constant (st st' : St) (evs : List Ev) (h : runEv st evs = some st') (hs : st.sid ≠ []) : st'.sid = st.sid := by
  induction evs generalizing st with
  | nil => simp only [runEv, Option.some.injEq] at h; rw [h]
  | cons ev evs ih =>
    simp only [runEv, Option.bind_eq_some_iff] at h
    obtain ⟨s1, h1, h2⟩ := h
    rcases step_sid h1 with h3 | ⟨h3, _⟩
    · rw [ih s1 h2 (by rw [h3]; exact hs), h3]
    · exact absurd h3 hs

/-- C49: the session identifier is the first exchange hash: after any history of a session that had none, there is still none, or the history
splits at the step that set it to the `H` of that step, there having been none before. -/
theorem C49_first (st st' : St) (evs : List Ev) (h : runEv st evs = some st') (hs : st.sid = []) :
    st'.sid = [] ∨ ∃ pre ev post s1 s2, evs = pre ++ ev :: post ∧ runEv st pre = some s1 ∧ s1.sid = [] ∧
      stepEv s1 ev = some s2 ∧ st'.sid = s2.h := by
  induction evs generalizing st with
  | nil => simp only [runEv, Option.some.injEq] at h; rw [← h]; exact .inl hs
  | cons ev evs ih =>
    simp only [runEv, Option.bind_eq_some_iff] at h
    obtain ⟨s1, h1, h2⟩ := h
    by_cases h3 : s1.sid = []
    · rcases ih s1 h2 h3 with h4 | ⟨pre, ev', post, a, b, e1, e2, e3, e4, e5⟩
      · exact .inl h4
      · refine .inr ⟨ev :: pre, ev', post, a, b, by rw [e1]; rfl, ?_, e3, e4, e5⟩
        simp only [runEv, h1, Option.bind_some, e2]
    · refine .inr ⟨[], ev, evs, st, s1, rfl, rfl, hs, h1, ?_⟩
      rw [C49_constant s1 st' evs h2 h3]
      rcases step_sid h1 with h5 | ⟨_, h5⟩
      · rw [hs] at h5; exact absurd h5 h3
      · exact h5

/-! ## What the exchange hash binds -/

theorem encUint32_inj {a b : Nat} (ha : a < 2 ^ 32) (hb : b < 2 ^ 32) (h : encUint32 a = encUint32 b) : a = b := by
  have h1 := beNat_encUint32 a ha
  have h2 := beNat_encUint32 b hb
  rw [← h1, ← h2, h]

/-- The lengths and numbers fit 32 bits. -/
def Small (x : Option Group) : Prop :=
  match x with
  | none => True
  | some x => x.min < 2 ^ 32 ∧ x.n < 2 ^ 32 ∧ x.max < 2 ^ 32 ∧ x.p.length < 2 ^ 32 ∧ x.g.length < 2 ^ 32

/-- C51: equal inputs of the exchange hash have equal parts: identification strings, `SSH_MSG_KEXINIT` messages, host key, and when both or
neither are of a group exchange also group, public values and secret. -/
theorem C51_binding (vc vs ic is ks e f k vc' vs' ic' is' ks' e' f' k' : Bytes) (x x' : Option Group)
    (hl : vc.length < 2 ^ 32 ∧ vs.length < 2 ^ 32 ∧ ic.length < 2 ^ 32 ∧ is.length < 2 ^ 32 ∧ ks.length < 2 ^ 32 ∧
      e.length < 2 ^ 32 ∧ f.length < 2 ^ 32 ∧ k.length < 2 ^ 32)
    (hl' : vc'.length < 2 ^ 32 ∧ vs'.length < 2 ^ 32 ∧ ic'.length < 2 ^ 32 ∧ is'.length < 2 ^ 32 ∧ ks'.length < 2 ^ 32 ∧
      e'.length < 2 ^ 32 ∧ f'.length < 2 ^ 32 ∧ k'.length < 2 ^ 32)
    (hx : Small x) (hx' : Small x')
    (h : hashInput vc vs ic is ks x e f k = hashInput vc' vs' ic' is' ks' x' e' f' k') :
    (vc = vc' ∧ vs = vs' ∧ ic = ic' ∧ is = is' ∧ ks = ks') ∧
    (x.isSome = x'.isSome → x = x' ∧ e = e' ∧ f = f' ∧ k = k') := by
  obtain ⟨l1, l2, l3, l4, l5, l6, l7, l8⟩ := hl
  obtain ⟨m1, m2, m3, m4, m5, m6, m7, m8⟩ := hl'
  simp only [hashInput, List.append_assoc] at h
  obtain ⟨h1, h⟩ := Wolf.UserAuth.encString_inj l1 m1 h
  obtain ⟨h2, h⟩ := Wolf.UserAuth.encString_inj l2 m2 h
  obtain ⟨h3, h⟩ := Wolf.UserAuth.encString_inj l3 m3 h
  obtain ⟨h4, h⟩ := Wolf.UserAuth.encString_inj l4 m4 h
  obtain ⟨h5, h⟩ := Wolf.UserAuth.encString_inj l5 m5 h
  refine ⟨⟨h1, h2, h3, h4, h5⟩, fun hs => ?_⟩
  have rest : ∀ r r' : Bytes, encString e ++ (encString f ++ (encString k ++ r)) = encString e' ++ (encString f' ++ (encString k' ++ r')) →
      e = e' ∧ f = f' ∧ k = k' := by
    intro r r' h
    obtain ⟨h6, h⟩ := Wolf.UserAuth.encString_inj l6 m6 h
    obtain ⟨h7, h⟩ := Wolf.UserAuth.encString_inj l7 m7 h
    obtain ⟨h8, h⟩ := Wolf.UserAuth.encString_inj l8 m8 h
    exact ⟨h6, h7, h8⟩
  have ul : ∀ n, (encUint32 n).length = 4 := fun n => by simp [encUint32]
  cases x with
  | none =>
    cases x' with
    | none => exact ⟨rfl, rest [] [] (by simpa [encGroup] using h)⟩
    | some y => simp at hs
  | some y =>
    cases x' with
    | none => simp at hs
    | some y' =>
      obtain ⟨p1, p2, p3, p4, p5⟩ := hx
      obtain ⟨q1, q2, q3, q4, q5⟩ := hx'
      simp only [encGroup, List.append_assoc] at h
      obtain ⟨g1, h⟩ := List.append_inj h (by rw [ul, ul])
      obtain ⟨g2, h⟩ := List.append_inj h (by rw [ul, ul])
      obtain ⟨g3, h⟩ := List.append_inj h (by rw [ul, ul])
      obtain ⟨g4, h⟩ := Wolf.UserAuth.encString_inj p4 q4 h
      obtain ⟨g5, h⟩ := Wolf.UserAuth.encString_inj p5 q5 h
      refine ⟨?_, rest [] [] (by simpa using h)⟩
      cases y; cases y'
      simp only [Option.some.injEq, Group.mk.injEq]
      exact ⟨encUint32_inj p1 q1 g1, encUint32_inj p2 q2 g2, encUint32_inj p3 q3 g3, g4, g5⟩

/-- C51, both ends: a client that goes on with the `H` a server signed has seen the same identification strings and the same
`SSH_MSG_KEXINIT` messages as that server, unless the hash collides on the two inputs: nothing of the negotiation was altered on the way. -/
theorem C51_no_tampering (C : ClientEnv) (S : ServerEnv) (cst sst : St) (cbuf sbuf : Bytes) (clen cidx slen sidx : Nat)
    (vc vs ic is vc' vs' ic' is' : Bytes) (co : Out) (so : SOut) (reply : Nat × Bytes)
    (hl : clen ≤ cbuf.length) (hw : clen < 2 ^ 32) (hi : cidx + 8 < 2 ^ 32) (hk : Fits cst.keys) (hp : Fits cst.peerKeys)
    (hsz : ∀ f k, C.agree f = some k → k.length + 1 < 2 ^ 32)
    (hl' : slen ≤ sbuf.length) (hw' : slen < 2 ^ 32) (hk' : Fits sst.keys) (hp' : Fits sst.peerKeys)
    (hsz' : ∀ e f k, S.agree e = some (f, k) → k.length + 1 < 2 ^ 32)
    (hv : vc.length < 2 ^ 32 ∧ vs.length < 2 ^ 32 ∧ (20 :: ic).length < 2 ^ 32 ∧ (20 :: is).length < 2 ^ 32)
    (hv' : vc'.length < 2 ^ 32 ∧ vs'.length < 2 ^ 32 ∧ (20 :: ic').length < 2 ^ 32 ∧ (20 :: is').length < 2 ^ 32)
    (hcst : cst.hash = some (kexInitHash false (encString vs) (vc ++ [13, 10]) (savedKexInit (20 :: ic)) is))
    (hsst : sst.hash = some (kexInitHash true (encString vc') (vs' ++ [13, 10]) (savedKexInit (20 :: is')) ic'))
    (hc : doKexDhReply C cst cbuf clen cidx = some co) (hs : doKexDhInit S sst sbuf slen sidx = some so)
    (hnew : co.newKeys = true) (hrep : so.reply = some reply)
    (hH : C.H = S.H) (hsame : co.st.h = so.st.h) (hcoll : ∀ x y, S.H.run x = some so.st.h → S.H.run y = some so.st.h → x = y) :
    vc = vc' ∧ vs = vs' ∧ ic = ic' ∧ is = is' := by
  obtain ⟨o1, a1, a2⟩ := C47_client_hash C cst cbuf clen cidx vc vs ic is hl hw hi hk hp hsz hcst
  obtain ⟨o2, b1, b2⟩ := C47_server_hash S sst sbuf slen sidx vc' vs' ic' is' hl' hw' hk' hp' hsz' hsst
  rw [hc] at a1; rw [hs] at b1
  simp only [Option.some.injEq] at a1 b1
  subst a1; subst b1
  obtain ⟨ks, f, sig, rest, secret, content, pk, s, c1, _⟩ := a2 hnew
  obtain ⟨ks', e', f', secret', content', sig', rest', d1, _⟩ := b2 reply.1 reply.2 hrep
  rw [hH, hsame] at c1
  have := hcoll _ _ c1 d1
  simp only [hashInput, List.append_assoc] at this
  obtain ⟨h1, h⟩ := Wolf.UserAuth.encString_inj hv.1 hv'.1 this
  obtain ⟨h2, h⟩ := Wolf.UserAuth.encString_inj hv.2.1 hv'.2.1 h
  obtain ⟨h3, h⟩ := Wolf.UserAuth.encString_inj hv.2.2.1 hv'.2.2.1 h
  obtain ⟨h4, h⟩ := Wolf.UserAuth.encString_inj hv.2.2.2 hv'.2.2.2 h
  simp only [List.cons.injEq, true_and] at h3 h4
  exact ⟨h1, h2, h3, h4⟩

/-! ## A whole exchange -/

/-- A signature as it arrives. -/
def sentSig : Sig → Sig
  | .blob s => .blob s
  | .rs r s => .rs (signPad r ++ r) (signPad s ++ s)

theorem sig_block (a : HostAlg) (s : Sig) (h : (∃ b, s = .blob b) ↔ a.family ≠ .ecc) :
    SigBlock a (encString a.sigName ++ encString (sigContent s)) (sentSig s) := by
  cases s with
  | blob b => exact ⟨h.mp ⟨b, rfl⟩, [], by simp [sigContent]⟩
  | rs r s =>
    refine ⟨?_, [], [], by simp [sigContent, padded_eq]⟩
    by_cases hf : a.family = .ecc
    · exact hf
    · obtain ⟨b, hb⟩ := h.mpr hf
      cases hb

/-- A client and a server about to exchange keys: they negotiated the same things, hashed the same start, and the library does
what it is for: the agreement gives both the same secret, the client can verify what the server signs. -/
structure Pair (C : ClientEnv) (S : ServerEnv) (cst sst : St) (e f kc ks g prev : Bytes) (pk : PubKey) (accept : Bytes → Bool) : Prop where
  hash : C.H = S.H
  host : C.host = S.host
  alg : cst.alg = sst.alg
  cprev : cst.hash = some prev
  sprev : sst.hash = some prev
  sid : cst.sid = sst.sid
  cignore : cst.ignoreNext = false
  signore : sst.ignoreNext = false
  cgex : clientGexBytes cst = .ok g
  sgex : serverGexBytes S sst = .ok g
  key : S.key = some pk
  ok : HostOk S.host pk
  check : C.check = some accept
  accepts : accept (blobOf S.host pk) = true
  imports : C.imports (sentPk pk) = true
  eSz : wireOf (clientMp cst.alg) e ≠ [] ∧ (wireOf (clientMp cst.alg) e).length ≤ S.eMax
  sagree : S.agree (wireOf (clientMp cst.alg) e) = some (f, ks)
  cagree : C.agree (wireOf (serverMp cst.alg) f) = some kc
  same : if cst.alg.useMlKem then kc = ks else beNat kc = beNat ks
  nonzero : beNat ks ≠ 0
  kSz : kc.length + 1 < 2 ^ 32 ∧ ks.length + 1 < 2 ^ 32
  total : ∀ x, S.H.run x ≠ none
  digest : S.H.digestSz ≠ 0
  sign : ∀ h, ∃ s, S.sign h = some s ∧ ((∃ b, s = .blob b) ↔ S.host.family ≠ .ecc) ∧
    (∀ b, s = .blob b → 2 ≤ b.length) ∧ C.verify (sentPk pk) h (sentSig s) = true
  fits : Fits cst.keys ∧ Fits cst.peerKeys ∧ Fits sst.keys ∧ Fits sst.peerKeys
  sizes : (cst.keys.ivSz, cst.keys.encKeySz, cst.keys.macKeySz) = (sst.peerKeys.ivSz, sst.peerKeys.encKeySz, sst.peerKeys.macKeySz)
  sizes' : (cst.peerKeys.ivSz, cst.peerKeys.encKeySz, cst.peerKeys.macKeySz) = (sst.keys.ivSz, sst.keys.encKeySz, sst.keys.macKeySz)

theorem beNat_zeros (n : Nat) : beNat (List.replicate n 0) = 0 := by
  induction n with
  | zero => rfl
  | succ n ih =>
    rw [List.replicate_succ]
    unfold beNat at *
    simpa using ih

theorem asMpint_ne {mp : Bool} {v : Bytes} (h : beNat v ≠ 0) : (asMpint mp v).1 ≠ [] := by
  intro hn
  obtain ⟨_, h2, _⟩ := onWire mp v
  cases mp with
  | true =>
    have hc := (canonical_wireOf v).1
    rw [← h2, hn, List.append_nil, beNat_zeros] at hc
    exact h hc.symm
  | false =>
    have : v = [] := hn
    rw [this] at h
    exact h rfl

theorem sendKexDhInit_eq (st : St) (e : Bytes) :
    sendKexDhInit st e = ({ st with e := wireOf (clientMp st.alg) e }, encString (wireOf (clientMp st.alg) e)) := by
  obtain ⟨_, h2, h3⟩ := onWire (clientMp st.alg) e
  unfold sendKexDhInit
  dsimp only
  rw [show (!st.alg.useMlKem && !st.alg.useCurve25519) = clientMp st.alg from rfl, h2, h3]

/-- C50: a client and a server that negotiated the same complete the exchange: the server answers the client's message, the client accepts the
answer, both have the same `H` and session identifier, and the keys of each direction are the same at both ends. Around the messages
may be anything. -/
theorem C50_complete (C : ClientEnv) (S : ServerEnv) (cst sst : St) (e f kc ks g prev : Bytes) (pk : PubKey) (accept : Bytes → Bool)
    (P : Pair C S cst sst e f kc ks g prev pk accept)
    (sbuf : Bytes) (slen sidx : Nat) (rest : Bytes) (hsl : slen ≤ sbuf.length) (hsw : slen < 2 ^ 32)
    (hsmsg : msgFrom sbuf slen sidx = (sendKexDhInit cst e).2 ++ rest) :
    ∃ so sz payload, doKexDhInit S sst sbuf slen sidx = some so ∧ so.ret = none ∧ so.reply = some (sz, payload) ∧ sz = payload.length ∧
      ∀ (cbuf : Bytes) (clen cidx : Nat) (rest' : Bytes), clen ≤ cbuf.length → clen < 2 ^ 32 → cidx + 8 < 2 ^ 32 →
        cst.alg.replyMsg :: (msgFrom cbuf clen cidx) = payload ++ rest' →
        ∃ co, doKexDhReply C (sendKexDhInit cst e).1 cbuf clen cidx = some co ∧ co.ret = none ∧ co.newKeys = true ∧
          co.st.h = so.st.h ∧ co.st.sid = so.st.sid ∧
          (ivOf co.st.keys, encOf co.st.keys, macOf co.st.keys) = (ivOf so.st.peerKeys, encOf so.st.peerKeys, macOf so.st.peerKeys) ∧
          (ivOf so.st.keys, encOf so.st.keys, macOf so.st.keys) = (ivOf co.st.peerKeys, encOf co.st.peerKeys, macOf co.st.peerKeys) := by
  rw [sendKexDhInit_eq] at hsmsg ⊢
  dsimp only at hsmsg ⊢
  generalize hE : wireOf (clientMp cst.alg) e = E at *
  have heSz := P.eSz
  rw [hE] at heSz
  have hsag := P.sagree
  rw [hE] at hsag
  have hslen : slen ≠ 0 := by
    intro h0
    have := enc_len_bound hsl hsmsg
    omega
  obtain ⟨r, g1, g2, g3, g4, g5⟩ := str_ref_at hsl hsw hsmsg
  -- the secret
  have hW : wireOf (!cst.alg.useMlKem) kc = wireOf (!cst.alg.useMlKem) ks := by
    have hs := P.same
    cases hm : cst.alg.useMlKem with
    | true => rw [hm] at hs; simp only [if_true] at hs; rw [hs]
    | false =>
      rw [hm] at hs
      simp only [Bool.false_eq_true, if_false] at hs
      exact canonical_unique _ _ _ (canonical_wireOf kc) (by rw [hs]; exact canonical_wireOf ks)
  have hknz : beNat kc ≠ 0 := by
    have hs := P.same
    have hn := P.nonzero
    split at hs
    · rw [hs]; exact hn
    · rw [hs]; exact hn
  obtain ⟨w1, w2, w3⟩ := onWire (!cst.alg.useMlKem) ks
  obtain ⟨x1, x2, x3⟩ := onWire (!cst.alg.useMlKem) kc
  obtain ⟨v1, v2, v3⟩ := onWire (serverMp cst.alg) f
  -- H
  obtain ⟨h, hrun⟩ : ∃ h, S.H.run (prev ++ encString (blobOf S.host pk) ++ g ++ encString E ++ encString (wireOf (serverMp cst.alg) f) ++
      encString (wireOf (!cst.alg.useMlKem) ks)) = some h := Option.ne_none_iff_exists'.mp (P.total _)
  have hne : h ≠ [] := by
    have := S.H.len _ _ hrun
    intro h0; rw [h0] at this; exact P.digest this.symm
  have hsid : (if cst.sid = [] then h else cst.sid) ≠ [] := by
    split
    · exact hne
    · assumption
  obtain ⟨s, hsg, hs1, hs2, hs3⟩ := P.sign h
  obtain ⟨fk1, fk2, fk3, fk4⟩ := P.fits
  obtain ⟨rs, sk', sp', k1, k2, k3, k4, k5, k6, k7⟩ := C33_keys S.H true sst.keys sst.peerKeys (asMpint (!cst.alg.useMlKem) ks).1 h
    (if cst.sid = [] then h else cst.sid) (!cst.alg.useMlKem) fk3 fk4
  have hrs : rs = none := k7 P.total P.digest (asMpint_ne P.nonzero) hne hsid
  subst hrs
  obtain ⟨rc, ck', cp', c1, c2, c3, c4, c5, c6, c7⟩ := C33_keys S.H false cst.keys cst.peerKeys (asMpint (!cst.alg.useMlKem) kc).1 h
    (if cst.sid = [] then h else cst.sid) (!cst.alg.useMlKem) fk1 fk2
  have hrc : rc = none := c7 P.total P.digest (asMpint_ne hknz) hne hsid
  subst hrc
  have hkey : secretBytes (asMpint (!cst.alg.useMlKem) kc).1 (!cst.alg.useMlKem) =
      secretBytes (asMpint (!cst.alg.useMlKem) ks).1 (!cst.alg.useMlKem) := by
    rw [secret_hashed _ _ P.kSz.1, secret_hashed _ _ P.kSz.2, hW]
  obtain ⟨q1, q2⟩ := C33_agree S.H cst.keys cst.peerKeys sst.keys sst.peerKeys ck' cp' sk' sp' _ _ h
    (if cst.sid = [] then h else cst.sid) (!cst.alg.useMlKem) hkey fk1 fk2 fk3 fk4 P.sizes P.sizes' c1 k1
  -- the server
  let so : SOut := {
      ret := none
      st := { sst with e := E, k := (asMpint (!cst.alg.useMlKem) ks).1, h := h, hash := none, sid := if cst.sid = [] then h else cst.sid, keys := sk', peerKeys := sp', expectNewKeys := true }
      reply := some (replyPayload S cst.alg pk (asMpint (serverMp cst.alg) f) (sigContent s)) }
  have hserver : doKexDhInit S sst sbuf slen sidx = some so := by
    unfold doKexDhInit
    rw [if_neg hslen, P.signore, if_neg (by simp), g1]
    dsimp only
    rw [if_neg (by
      rw [g4]
      have := heSz.1
      have := heSz.2
      rw [not_or]
      refine ⟨by omega, ?_⟩
      intro h0
      exact heSz.1 (List.length_eq_zero_iff.mp h0)), g2]
    dsimp only
    unfold sendKexDhReply
    rw [P.key]
    dsimp only
    rw [P.sprev]
    dsimp only
    generalize hgx : serverGexBytes S _ = gg
    rw [show gg = .ok g from hgx.symm.trans P.sgex]
    dsimp only
    rw [hsag]
    dsimp only
    rw [← P.alg]
    rw [show prev ++ hashedKey S.host pk ++ g ++ (c32toa E.length ++ E) ++
        mpintOnWire (asMpint (cst.alg.useDh || (cst.alg.useEcdh && !cst.alg.useMlKem)) f) ++ mpintOnWire (asMpint (!cst.alg.useMlKem) ks)
        = prev ++ encString (blobOf S.host pk) ++ g ++ encString E ++ encString (wireOf (serverMp cst.alg) f) ++
      encString (wireOf (!cst.alg.useMlKem) ks) by
        rw [(hashed_sent _ _).1, ← encString_eq, w1, ← v1]; rfl, hrun]
    dsimp only
    unfold serverFinish
    dsimp only
    rw [hsg]
    dsimp only
    rw [← P.sid, k1]
    simp only [so, serverMp, P.signore, P.alg]
  have hpay : replyPayload S cst.alg pk (asMpint (serverMp cst.alg) f) (sigContent s) =
      (([cst.alg.replyMsg] ++ encString (blobOf S.host pk) ++ encString (wireOf (serverMp cst.alg) f) ++
        encString (encString S.host.sigName ++ encString (sigContent s))).length,
       [cst.alg.replyMsg] ++ encString (blobOf S.host pk) ++ encString (wireOf (serverMp cst.alg) f) ++
        encString (encString S.host.sigName ++ encString (sigContent s))) := by
    exact replyPayload_eq S cst.alg pk f (sigContent s)
  refine ⟨so, _, _, hserver, rfl, congrArg some hpay, rfl, ?_⟩
  intro cbuf clen cidx rest' hcl hcw hci hcm
  have hcm : msgFrom cbuf clen cidx = encString (blobOf S.host pk) ++ (encString (wireOf (serverMp cst.alg) f) ++
      (encString (encString S.host.sigName ++ encString (sigContent s)) ++ rest')) := by
    simpa using hcm
  have hcb := enc_len_bound hcl hcm
  obtain ⟨d1, d2⟩ := key_at hcl hcw hci hcm (by simp only [List.length_append, enc_length]; omega)
  obtain ⟨e1, e2⟩ := field_at hcl hcw d2
  obtain ⟨j1, j2⟩ := field_at hcl hcw e2
  have hblob : (blobOf S.host pk).length < 2 ^ 32 := by omega
  have hsigl : (encString S.host.sigName ++ encString (sigContent s)).length < 2 ^ 32 := by
    have := enc_len_bound hcl e2
    omega
  have hparse := parse_complete S.host (blobOf S.host pk) (sentPk pk) hblob P.ok.1 (blob_key _ _ P.ok)
  have hcheck : checkSig C (sentPk pk) h (encString S.host.sigName ++ encString (sigContent s)) = some (.ok ()) := by
    refine checkSig_complete C (sentPk pk) h _ (sentSig s) hsigl ?_ ?_ hs3
    · rw [P.host]; exact sig_block _ _ hs1
    · intro b hb _
      cases s with
      | blob b' => simp only [sentSig, Sig.blob.injEq] at hb; rw [← hb]; exact hs2 b' rfl
      | rs r s => cases hb
  let co : Out := {
      ret := none
      st := { cst with e := E, k := (asMpint (!cst.alg.useMlKem) kc).1, h := h, hash := none, sid := if cst.sid = [] then h else cst.sid, keys := ck', peerKeys := cp', expectNewKeys := true }
      shown := some (blobOf S.host pk)
      newKeys := true }
  have hclient : doKexDhReply C { cst with e := E } cbuf clen cidx = some co := by
    unfold doKexDhReply
    rw [if_neg (by omega)]
    dsimp only
    rw [P.cignore, if_neg (by simp), d1]
    dsimp only
    rw [P.check]
    dsimp only
    rw [if_pos P.accepts]
    unfold clientReply
    dsimp only
    rw [P.cprev]
    dsimp only
    generalize hgx : clientGexBytes _ = gg
    rw [show gg = .ok g from hgx.symm.trans P.cgex]
    dsimp only
    rw [e1]
    dsimp only
    rw [j1]
    dsimp only
    unfold clientFinish
    rw [P.host, hparse]
    dsimp only
    rw [if_neg (by rw [P.imports]; simp), P.cagree]
    dsimp only
    rw [x1, hW, ← encString_eq, P.hash, hrun]
    dsimp only
    rw [hcheck]
    dsimp only
    unfold clientKeys
    dsimp only
    rw [P.hash, c1]
    simp only [co, P.cignore]
  exact ⟨co, hclient, rfl, rfl, rfl, rfl, q1, q2⟩

/-! ## Concrete cases -/

section Examples

/-- `rsa-sha2-256` with a small key. -/
def exHost : HostAlg := ⟨.rsa, asc "rsa-sha2-256", asc "none", asc "ssh-rsa", asc "rsa-sha2-256"⟩
/-- Multiplication modulo 251 stands for the group, `3` is the client's secret, `5` the server's. -/
def exClient : ClientEnv :=
  { H := toy, check := some fun b => b.length < 40, host := exHost, imports := fun _ => true
    agree := fun f => some [UInt8.ofNat (beNat f * 3 % 251)]
    verify := fun pk h s => decide (pk = .rsa [1, 0, 1] [0, 0x95, 7]) && decide (s = .blob ([1, 2] ++ h)) }
def exServer : ServerEnv :=
  { H := toy, eMax := 512, build := ⟨true, true, 512, 512⟩, host := exHost, key := some (.rsa [1, 0, 1] [0x95, 7])
    agree := fun e => some ([(200 : UInt8)], [UInt8.ofNat (beNat e * 200 % 251)])
    sign := fun h => some (.blob ([1, 2] ++ h)) }
def exPrev : Bytes :=
  kexInitHash true (encString (asc "SSH-2.0-c")) (asc "SSH-2.0-s" ++ [13, 10]) (savedKexInit [20, 7, 7]) [8, 8, 8]
def exClientSt : St :=
  ⟨.dh, some exPrev, [], [], [], blank.setSizes (.ctr .k256) .sha512, blank.setSizes (.gcm .k128) .none, [], ⟨0, 0, 0, none, none⟩, false, false⟩
def exServerSt : St :=
  ⟨.dh, some exPrev, [], [], [], blank.setSizes (.gcm .k128) .none, blank.setSizes (.ctr .k256) .sha512, [], ⟨0, 0, 0, none, none⟩, false, false⟩

/-- Both sides start the hash with the same bytes. -/
example : exPrev = kexInitHash false (encString (asc "SSH-2.0-s")) (asc "SSH-2.0-c" ++ [13, 10]) (savedKexInit [20, 8, 8, 8]) [7, 7] := by
  decide +kernel

/-- The hypotheses of `C50_complete` can be met. -/
example : Pair exClient exServer exClientSt exServerSt [3] [200] [UInt8.ofNat (200 * 3 % 251)] [UInt8.ofNat (3 * 200 % 251)] [] exPrev
    (.rsa [1, 0, 1] [0x95, 7]) (fun b => b.length < 40) where
  hash := rfl
  host := rfl
  alg := rfl
  cprev := rfl
  sprev := rfl
  sid := rfl
  cignore := rfl
  signore := rfl
  cgex := rfl
  sgex := rfl
  key := rfl
  ok := by refine ⟨?_, ?_, ?_⟩ <;> decide
  check := rfl
  accepts := by decide +kernel
  imports := rfl
  eSz := by decide +kernel
  sagree := by decide +kernel
  cagree := by decide +kernel
  same := by decide +kernel
  nonzero := by decide +kernel
  kSz := by decide
  total := by intro x; simp [exServer, toy]
  digest := by simp [exServer, toy]
  sign := by
    intro h
    refine ⟨.blob ([1, 2] ++ h), rfl, ⟨fun _ => by decide, fun _ => ⟨_, rfl⟩⟩, ?_, ?_⟩
    · intro b hb; simp only [Sig.blob.injEq] at hb; rw [← hb]; simp
    · have : sentPk (.rsa [1, 0, 1] [0x95, 7]) = .rsa [1, 0, 1] [0, 0x95, 7] := by decide +kernel
      simp [exClient, sentSig, this]
  fits := by unfold Fits Keys.WF; decide
  sizes := by decide
  sizes' := by decide

def exReply : Bytes := ((doKexDhInit exServer exServerSt (encString [3]) 5 0).bind (·.reply)).elim [] (·.2)

/-- The reply of that exchange, and what the client makes of it: it goes on; not with one byte of the signature changed, not after
the callback refused. -/
example : exReply.length = 1 + 4 + 25 + 4 + 2 + 4 + (4 + 12 + 4 + 6) ∧
    (doKexDhReply exClient (sendKexDhInit exClientSt [3]).1 (exReply.drop 1) (exReply.length - 1) 0).map (fun o => (o.ret, o.newKeys, o.st.sid.length))
      = some (none, true, 4) ∧
    (doKexDhReply exClient (sendKexDhInit exClientSt [3]).1 ((exReply.drop 1).dropLast ++ [0xFF]) (exReply.length - 1) 0).map
      (fun o => (o.ret, o.newKeys)) = some (some .rsaE, false) ∧
    (doKexDhReply { exClient with check := some fun _ => false } (sendKexDhInit exClientSt [3]).1 (exReply.drop 1) (exReply.length - 1) 0).map
      (fun o => (o.ret, o.newKeys, o.shown.isSome)) = some (some .pubkeyRejected, false, true) := by
  decide +kernel

/-- A second exchange keeps the session identifier though `H` differs. -/
example : (runEv exClientSt [.other (sendKexDhInit exClientSt [3]).1,
      .reply exClient (exReply.drop 1) (exReply.length - 1) 0,
      .other { (sendKexDhInit exClientSt [3]).1 with hash := some ([1] ++ exPrev) },
      .reply { exClient with verify := fun _ _ _ => true } (exReply.drop 1) (exReply.length - 1) 0]).map
    (fun st => (st.sid = st.h, st.sid.length, st.h.length, st.expectNewKeys)) = some (False, 4, 4, true) := by
  simp only [Option.map_eq_some_iff]
  refine ⟨((runEv exClientSt [.other (sendKexDhInit exClientSt [3]).1,
      .reply exClient (exReply.drop 1) (exReply.length - 1) 0,
      .other { (sendKexDhInit exClientSt [3]).1 with hash := some ([1] ++ exPrev) },
      .reply { exClient with verify := fun _ _ _ => true } (exReply.drop 1) (exReply.length - 1) 0]).getD exClientSt), ?_, ?_⟩
  · generalize hx : runEv _ _ = x
    cases x with
    | none =>
      have : (runEv exClientSt [.other (sendKexDhInit exClientSt [3]).1,
        .reply exClient (exReply.drop 1) (exReply.length - 1) 0,
        .other { (sendKexDhInit exClientSt [3]).1 with hash := some ([1] ++ exPrev) },
        .reply { exClient with verify := fun _ _ _ => true } (exReply.drop 1) (exReply.length - 1) 0]).isSome = true := by decide +kernel
      rw [hx] at this; cases this
    | some y => rfl
  · simp only [Prod.mk.injEq, eq_iff_iff, iff_false]
    decide +kernel

/-- An ECDSA server with a group exchange group: the reply carries the signature as two padded numbers. -/
example :
    (doKexDhInit { exServer with host := ⟨.ecc, asc "ecdsa-sha2-nistp256", asc "nistp256", asc "ecdsa-sha2-nistp256", asc "ecdsa-sha2-nistp256"⟩
                                 key := some (.ecc [4, 1, 2]), sign := fun _ => some (.rs [0x80] [1]) }
      { exServerSt with alg := .dhGex, gex := ⟨2048, 2048, 4096, some [0xFF, 1], some [2]⟩ } (encString [3]) 5 0).map
      (fun o => (o.ret, o.reply.map (fun r => (r.1 == r.2.length, r.2.getD 0 0, r.2.drop (r.2.length - 15)))))
      = some (none, some (true, 33, encUint32 11 ++ encString [0, 0x80] ++ encString [1])) := by decide +kernel

end Examples

end Props.Exchange
