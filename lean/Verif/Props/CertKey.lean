import Verif.Proofs.CertKey
import Verif.Props.CertMan
/-!
# C146, C147: host keys in X.509 certificates
-/

namespace Props.CertKey
open Wolf Wolf.Wire Wolf.CertKey Spec.CertKey Spec.Wire Spec.CertMan Proofs.CertKey
open Wolf.CertMan (Lib Ret Event run parseChainVerify parseChain)
open Props.CertMan (mLib mLeaf mBoth mOne mSigns mValid)

/-- C146: with enough room, exactly the key of RFC 6187 is written at the index, as a string; all before and behind is left, and the
index is moved behind it. -/
theorem C146 (id : CertId) (cert out : Bytes) (idx : Nat) (hc : cert.length + 100 < 2 ^ 32) (hw : out.length < 2 ^ 32)
    (hr : idx + (encString (keyBlob id cert)).length ≤ out.length) :
    buildInfo (some id) cert (some out) idx =
      .wrote (out.take idx ++ encString (keyBlob id cert) ++ out.drop (idx + (encString (keyBlob id cert)).length))
        (idx + (encString (keyBlob id cert)).length) := by
  unfold buildInfo
  simp only
  rw [emit_eq _ (fields_len id cert) out idx hw (by rw [flat_fields id cert hc]; exact hr), flat_fields id cert hc]

/-- C146: without a buffer, exactly the size that is then needed is given. -/
theorem C146_size (id : CertId) (cert : Bytes) (idx : Nat) (hc : cert.length + 100 < 2 ^ 32)
    (hi : idx + (encString (keyBlob id cert)).length < 2 ^ 32) :
    buildInfo (some id) cert none idx = .size (encString (keyBlob id cert)).length := by
  unfold buildInfo
  simp only
  rw [skim_eq _ (fields_len id cert) idx (by rw [flat_fields id cert hc]; exact hi), flat_fields id cert hc]
  congr 1
  unfold sub32
  omega

/-- C146: for any other algorithm nothing is written. -/
theorem C146_other (cert : Bytes) (out : Option Bytes) (idx : Nat) : buildInfo none cert out idx = .bad := rfl

/-- C146: what the server hashes as its key is what it sends, whatever the new memory holds and whatever the size was before. -/
theorem C146_hash (id : CertId) (cert : Bytes) (sz0 : Nat) (fresh : Nat → Bytes) (hf : ∀ n, (fresh n).length = n)
    (hc : cert.length + 100 < 2 ^ 32) :
    hashedKey (some id) cert sz0 true fresh = some (.ok (encString (keyBlob id cert))) := by
  have hn := name_length id
  have hl : (encString (keyBlob id cert)).length < 2 ^ 32 := by rw [encString_length, keyBlob_length]; omega
  unfold hashedKey
  rw [C146_size id cert 0 hc (by omega)]
  simp only
  rw [C146 id cert _ 0 hc (by rw [hf]; exact hl) (by rw [hf]; omega)]
  simp only [List.take_zero, List.nil_append, Nat.zero_add]
  rw [if_neg (by decide), List.drop_of_length_le (by rw [hf]; exact Nat.le_refl _), List.append_nil,
    if_pos (Nat.le_refl _), List.take_length]

/-- C146: a reader finds one certificate in it, and it is the one given. -/
theorem C146_read (id : CertId) (cert : Bytes) (hc : cert.length + 100 < 2 ^ 32) :
    ∃ ch, parseChain (keyBlob id cert) (keyBlob id cert).length = .ok ch ∧ ch.leaf = cert ∧ ch.count = 1 := by
  have hn := name_length id
  obtain ⟨ch, h1, h2, h3, _⟩ := Proofs.CertMan.parse_fwd (by rw [keyBlob_length]; omega) (message id cert)
  refine ⟨ch, h1, ?_, h3⟩
  simp only [List.head?_cons, Option.some.injEq] at h2
  exact h2.symm

/-- C147: if a host key is taken from a message, then the message holds a chain whose first certificate is valid, not revoked and
signed by a trusted one, and the key is the one in that certificate, of the kind of the negotiated algorithm. Missing: that its curve
is that of the algorithm; see `C147_curve`. -/
theorem C147_partial (L : Lib) (K : KLib) (signs : Bytes → Bytes → Prop) (valid : Nat → Bytes → Prop) (hS : Sound L signs valid)
    (es : List Event) (hz : ∀ a n m, Event.peer a n m ∈ es → m.length < 2 ^ 32)
    (e : Env) (now : Nat) (id : CertId) (msg : Bytes) (hw : msg.length < 2 ^ 32)
    (h : (parseCertKey L K e now (run L es) id msg msg.length).ret = .success) :
    ∃ leaf cs der k, Message msg (leaf :: cs) ∧ valid now leaf ∧ NotRevoked L now leaf ∧
      (∃ s, Trusted L signs valid (es ++ [.peer e.chainMem now msg]) s ∧ signs s leaf) ∧
      K.pubDer leaf = some der ∧ K.decode (kindOf id) der = some k ∧
      (parseCertKey L K e now (run L es) id msg msg.length).key = some k := by
  rcases hv : parseChainVerify L e.chainMem now (run L es) msg msg.length with ⟨⟨r, S'⟩, leaf⟩
  obtain ⟨_, _, ⟨_, h1, der, k, _, h2, h3, h4⟩ | ⟨h1, _⟩⟩ := parseCert_cases L K e now (run L es) id msg msg.length
  · rw [hv] at h1 h2
    simp only at h1 h2
    subst h1
    obtain ⟨⟨cs, hm⟩, a, b, c, _⟩ := Props.CertMan.C140_partial L signs valid hS es hz e.chainMem now msg hw S' leaf hv
    exact ⟨leaf, cs, der, k, hm, a, b, c, h2, h3, h4⟩
  · exact absurd h h1

/-- C147: there is a key exactly if the call succeeds. -/
theorem C147_key (L : Lib) (K : KLib) (e : Env) (now : Nat) (S : List Bytes) (id : CertId) (mem : Bytes) (len : Nat) :
    (∃ k, (parseCertKey L K e now S id mem len).key = some k) ↔ (parseCertKey L K e now S id mem len).ret = .success := by
  obtain ⟨_, _, ⟨h, _, _, k, _, _, _, hk⟩ | ⟨h, hk, _⟩⟩ := parseCert_cases L K e now S id mem len
  · exact ⟨fun _ => h, fun _ => ⟨k, hk⟩⟩
  · exact ⟨(fun ⟨k, hk'⟩ => by rw [hk] at hk'; cases hk'), (fun h' => absurd h' h)⟩

/-- C147: a chain that is refused gives its code. -/
theorem C147_refused (L : Lib) (K : KLib) (e : Env) (now : Nat) (S : List Bytes) (id : CertId) (mem : Bytes) (len : Nat)
    (h : (parseChainVerify L e.chainMem now S mem len).1.1 ≠ .success) :
    (parseCertKey L K e now S id mem len).ret = (parseChainVerify L e.chainMem now S mem len).1.1 := by
  obtain ⟨_, _, ⟨_, h', _⟩ | ⟨_, _, h' | ⟨h', _⟩⟩⟩ := parseCert_cases L K e now S id mem len
  · exact absurd h' h
  · exact h'
  · exact absurd h' h

/-- C147: an accepted chain gives a key if no call of wolfCrypt fails. -/
theorem C147_accepts (L : Lib) (K : KLib) (now : Nat) (S : List Bytes) (id : CertId) (mem : Bytes) (len : Nat)
    (S' : List Bytes) (leaf der : Bytes) (k : Key)
    (hv : parseChainVerify L true now S mem len = ((.success, S'), leaf)) (hp : K.parses leaf = true) (hd : K.pubDer leaf = some der)
    (hcp : K.copies leaf = true) (hk : K.decode (kindOf id) der = some k) :
    (parseCertKey L K ⟨true, true, true, true⟩ now S id mem len).ret = .success ∧
    (parseCertKey L K ⟨true, true, true, true⟩ now S id mem len).key = some k := by
  have hc := parseCert_cases L K ⟨true, true, true, true⟩ now S id mem len
  simp only [hv] at hc
  obtain ⟨_, _, ⟨h, _, der', k', _, h2, h3, h4⟩ | ⟨h, _, h' | ⟨_, h'⟩⟩⟩ := hc
  · rw [hd] at h2; cases h2; rw [hk] at h3; cases h3; exact ⟨h, h4⟩
  · exact absurd h' h
  · rw [h' ⟨hp, trivial, trivial, trivial, hcp⟩ der hd] at hk; cases hk

/-- C147: the key in DER and the key object are freed once each, in every case. -/
theorem C147_memory (L : Lib) (K : KLib) (e : Env) (now : Nat) (S : List Bytes) (id : CertId) (mem : Bytes) (len : Nat) :
    Clean (finish (parseCertKey L K e now S id mem len)) := (parseCert_cases L K e now S id mem len).2.1

/-- Keys: that of `[3]` is on a curve of 384 bits. -/
def mKeys : KLib := ⟨fun _ => true, fun c => some (9 :: c), fun _ => true, fun k d => if k = .ecc then some ⟨d, some 384⟩ else none⟩

/-- C147: the missing part is false. A key on another curve than that of the negotiated algorithm is taken. -/
theorem C147_curve : ∃ L K signs valid es msg k, Sound L signs valid ∧
    (parseCertKey L K ⟨true, true, true, true⟩ 5 (run L es) .p256 msg msg.length).ret = .success ∧
    (parseCertKey L K ⟨true, true, true, true⟩ 5 (run L es) .p256 msg msg.length).key = some k ∧
    k.curve ≠ curveOf .p256 :=
  ⟨mLib true mLeaf, mKeys, mSigns, mValid, [.load 0 [1]], mBoth, ⟨[9, 3], some 384⟩, Props.CertMan.m_sound _ _,
    by decide +kernel, by decide +kernel, by decide +kernel⟩

/-- The hypotheses of `C147_partial` and `C147_accepts` are met, and those of `C147_refused`. -/
example : (parseCertKey (mLib true mLeaf) mKeys ⟨true, true, true, true⟩ 5 (run (mLib true mLeaf) [.load 0 [1]]) .p384 mBoth mBoth.length) =
    ⟨.success, some ⟨[9, 3], some 384⟩, true, [.derAlloc 2, .keyInit, .derFree], [[1], [2]]⟩ := by decide +kernel

example : (parseChainVerify (mLib true mLeaf) true 5 (run (mLib true mLeaf) [.load 0 [1]]) mOne mOne.length).1.1 ≠ .success := by
  decide +kernel

/-- The wrong kind: the object of an RSA key is freed later, that of an ML-DSA key at once. -/
example : finish (parseCertKey (mLib true mLeaf) mKeys ⟨true, true, true, true⟩ 5 (run (mLib true mLeaf) [.load 0 [1]]) .rsa mBoth mBoth.length) =
    [.derAlloc 2, .keyInit, .derFree, .keyFree] := by decide +kernel

example : finish (parseCertKey (mLib true mLeaf) mKeys ⟨true, true, true, true⟩ 5 (run (mLib true mLeaf) [.load 0 [1]]) .ml65 mBoth mBoth.length) =
    [.derAlloc 2, .keyInit, .keyFree, .derFree] := by decide +kernel

/-- The hypotheses of `C146` are met. -/
example : buildInfo (some .rsa) [5, 6] (some (List.replicate 40 7)) 1 =
    .wrote ([7] ++ ([0, 0, 0, 32, 0, 0, 0, 14] ++ asc "x509v3-ssh-rsa" ++ [0, 0, 0, 1, 0, 0, 0, 2, 5, 6, 0, 0, 0, 0]) ++ [7, 7, 7]) 37 := by
  decide +kernel

example : ∃ b, hashedKey (some .rsa) [5, 6] 0 true (fun n => List.replicate n 7) = some (.ok b) ∧ b.length = 36 :=
  ⟨_, C146_hash .rsa [5, 6] 0 _ (fun _ => List.length_replicate) (by decide), by decide +kernel⟩

end Props.CertKey
