import Verif.Spec.Packet
import Verif.Props.Buffer
import Verif.Proofs.Wire
/-!
# The sending side of the packet layer
-/

namespace Proofs.Packet
open Wolf Wolf.Buffer Wolf.Packet Wolf.Wire Spec.Packet Spec.Buffer

theorem write_mid (A X B Y : Bytes) (n : Nat) (hn : n = A.length) (h : X.length = Y.length) :
    write (A ++ (X ++ B)) n Y = some (A ++ (Y ++ B)) := by
  subst hn
  unfold write
  rw [if_pos (by simp; omega), List.take_left]
  rw [List.drop_append, List.drop_of_length_le (by omega)]
  simp [← h]

theorem read_mid (A X B : Bytes) (n k : Nat) (hn : n = A.length) (hk : k = X.length) :
    Buffer.read (A ++ (X ++ B)) n k = some X := by
  subst hn hk
  unfold Buffer.read
  rw [if_pos (by simp)]
  simp

/-- Splitting memory at `n`. -/
theorem split_at (m : Bytes) (n : Nat) (h : n ≤ m.length) :
    ∃ x y, m = x ++ y ∧ x.length = n ∧ y.length = m.length - n :=
  ⟨m.take n, m.drop n, by simp, by simp; omega, by simp⟩

theorem paddingSz_spec (block : Nat) (aead : Bool) (payload : Bytes)
    (hb : block = 8 ∨ block = 16) :
    ∃ p, paddingSz block aead payload.length = some p ∧ 4 ≤ p ∧ p ≤ block + 3 ∧
      block ∣ (if aead then 0 else 4) + 1 + payload.length + p := by
  unfold paddingSz add32
  have : ¬ block = 0 := by omega
  rw [if_neg this]
  refine ⟨_, rfl, ?_, ?_, ?_⟩
  · rcases hb with rfl | rfl <;> cases aead <;> simp <;> split <;> omega
  · rcases hb with rfl | rfl <;> cases aead <;> simp <;> split <;> omega
  · rcases hb with rfl | rfl <;> cases aead <;> simp <;> split <;> omega


/-- The carry loop of the nonce increment: value and length. -/
theorem carry_spec (bs : Bytes) :
    let r := bs.foldr (fun (b : Byte) (p : Bytes × Nat) =>
      (UInt8.ofNat (b.toNat + p.2) :: p.1, ((b.toNat + p.2) >>> 8) &&& 1)) ([], 1)
    r.1.length = bs.length ∧ r.2 ≤ 1 ∧
      Spec.Wire.beNat r.1 + r.2 * 256 ^ bs.length = Spec.Wire.beNat bs + 1 := by
  induction bs with
  | nil => simp [Spec.Wire.beNat]
  | cons b bs ih =>
    simp only [List.foldr_cons]
    obtain ⟨h1, h2, h3⟩ := ih
    revert h1 h2 h3
    generalize bs.foldr (fun (b : Byte) (p : Bytes × Nat) =>
      (UInt8.ofNat (b.toNat + p.2) :: p.1, ((b.toNat + p.2) >>> 8) &&& 1)) ([], 1) = r
    intro h1 h2 h3
    have hb : b.toNat < 256 := UInt8.toNat_lt b
    have hand : ∀ n, n &&& 1 = n % 2 := fun n => Nat.and_two_pow_sub_one_eq_mod n 1
    have hsh : ∀ n, n >>> 8 = n / 256 := fun n => Nat.shiftRight_eq_div_pow n 8
    refine ⟨by simp [h1], by rw [hand]; omega, ?_⟩
    rw [Wolf.Wire.beNat_cons, Wolf.Wire.beNat_cons, h1, hand, hsh, List.length_cons, Nat.pow_succ]
    have e : (UInt8.ofNat (b.toNat + r.2)).toNat = (b.toNat + r.2) % 256 := by simp
    rw [e]
    have : (b.toNat + r.2) / 256 % 2 = (b.toNat + r.2) / 256 := by omega
    rw [this]
    have hd : (b.toNat + r.2) % 256 + 256 * ((b.toNat + r.2) / 256) = b.toNat + r.2 := Nat.mod_add_div _ _
    generalize 256 ^ bs.length = w at *
    generalize (b.toNat + r.2) % 256 = u at *
    generalize (b.toNat + r.2) / 256 = v at *
    have : u * w + v * (w * 256) = (u + 256 * v) * w := by grind
    have h4 : (b.toNat + r.2) * w = b.toNat * w + r.2 * w := Nat.add_mul ..
    rw [hd, h4] at this
    omega

theorem increment_spec (iv : Bytes) (h : iv.length = 12) :
    (aeadIncrementExpIv iv).length = 12 ∧ (aeadIncrementExpIv iv).take 4 = iv.take 4 ∧
    Spec.Wire.beNat ((aeadIncrementExpIv iv).drop 4) = (Spec.Wire.beNat (iv.drop 4) + 1) % 2^64 := by
  unfold aeadIncrementExpIv
  have hd : (iv.drop 4).take 8 = iv.drop 4 := List.take_of_length_le (by simp; omega)
  have hl : (iv.drop 4).length = 8 := by simp; omega
  simp only [hd]
  obtain ⟨h1, h2, h3⟩ := carry_spec (iv.drop 4)
  revert h1 h2 h3
  generalize (iv.drop 4).foldr _ _ = r
  intro h1 h2 h3
  rw [List.drop_of_length_le (by omega : iv.length ≤ 12)]
  refine ⟨by simp [h1]; omega, ?_, ?_⟩
  · rw [List.append_nil, List.take_append_of_le_length (by simp; omega)]
    simp [List.take_take]
  · rw [List.append_nil, List.drop_append_of_le_length (by simp; omega),
      List.drop_of_length_le (by simp; omega), List.nil_append]
    have h5 := Wolf.Wire.beNat_lt r.1
    rw [h1, hl] at h5
    rw [hl] at h3
    have : r.2 = 0 ∨ r.2 = 1 := by omega
    rcases this with e | e <;> rw [e] at h3 <;> omega

theorem suite_block {s : Suite} (h : SuiteOk s) : s.blockSz = 8 ∨ s.blockSz = 16 := by
  obtain ⟨h1, _, h3, _⟩ := h
  have := congrArg Suite.blockSz h3
  clear h3
  revert this h1
  unfold setAlgoIds
  cases s.encId <;> simp [aeadModeForId, blockSzForId] <;> omega

theorem suite_aead {s : Suite} (h : SuiteOk s) : s.aead = aeadModeForId s.encId := by
  obtain ⟨h1, _, h3, _⟩ := h
  have := congrArg Suite.aead h3
  revert this
  unfold setAlgoIds
  cases he : s.encId <;> simp [aeadModeForId]

theorem suite_aead_block {s : Suite} (h : SuiteOk s) (ha : s.aead = true) : s.blockSz = 16 := by
  rw [suite_aead h] at ha
  obtain ⟨h1, _, h3, _⟩ := h
  have := congrArg Suite.blockSz h3
  revert this ha
  unfold setAlgoIds
  clear h3
  cases s.encId <;> simp [aeadModeForId, blockSzForId]

theorem suite_macSz {s : Suite} (h : SuiteOk s) :
    s.macSz = if s.aead then 16 else macSzForId s.macId := by
  have ha := suite_aead h
  obtain ⟨h1, _, h3, _⟩ := h
  have := congrArg Suite.macSz h3
  revert this
  rw [ha]
  unfold setAlgoIds
  clear h3
  revert h1
  cases s.encId <;> simp [aeadModeForId, blockSzForId]

theorem createMac_spec (P : Prims) (hs : Sizes P) {s : Suite} (h : SuiteOk s) (hne : s.aead = false)
    (seq : Nat) (packet : Bytes) :
    (∃ mac, createMac P s seq packet = (none, mac) ∧ mac.length = s.macSz ∧ MacOf P s seq packet mac) ∨
    (createMac P s seq packet = (some .cryptoFailed, []) ∧ ∃ m k x, P.hmac m k x = none) := by
  have hm := suite_macSz h
  rw [hne] at hm
  simp only [Bool.false_eq_true, if_false] at hm
  have hmac := hs.hmac
  obtain ⟨_, h2, _, _⟩ := h
  unfold createMac MacOf
  rw [hm]
  rw [← Wolf.Wire.c32toa_eq]
  cases hid : s.macId <;> simp only [hid, ne_eq, not_true_eq_false, reduceCtorEq, not_false_eq_true] at h2 ⊢ <;>
    simp only [macSzForId]
  · left; exact ⟨[], rfl, rfl, rfl⟩
  all_goals
    split
    · rename_i x hn
      right; exact ⟨rfl, _, _, _, hn⟩
    · rename_i d hd
      left
      have := hmac _ _ _ _ hd
      simp only [macSzForId] at this
      exact ⟨_, rfl, by simp; omega, d, hd, rfl⟩

theorem encrypt_spec (P : Prims) (hs : Sizes P) {s : Suite} (h : SuiteOk s) (hne : s.aead = false)
    (c : Option P.State) (packet : Bytes) (h0 : packet.length ≠ 0)
    (hb : s.blockSz ∣ packet.length) :
    (∃ c' ct, encrypt P s.encId c packet = (none, c', ct) ∧ ct.length = packet.length ∧
      ∀ seq mac, MacOf P s seq packet mac → Sealed P s c seq packet (ct ++ mac) c') ∨
    (encrypt P s.encId c packet = (some .encryptE, c, packet) ∧ s.encId ≠ .none ∧
      (c = none ∨ ∃ id st x, P.enc id st x = none)) := by
  have ha := suite_aead h
  have henc := hs.enc
  rw [hne] at ha
  obtain ⟨h1, h2, h3, _⟩ := h
  have hbs := congrArg Suite.blockSz h3
  unfold encrypt Sealed
  rw [if_neg h0]
  cases hid : s.encId <;> simp only [hid, ne_eq, not_true_eq_false, reduceCtorEq, not_false_eq_true] at h1 ⊢
  · left; exact ⟨c, packet, rfl, rfl, fun seq mac hm => ⟨mac, hm, rfl, rfl⟩⟩
  · rw [hid] at hbs
    have hbs : s.blockSz = 16 := hbs
    have : packet.length % 16 = 0 := by rw [hbs] at hb; omega
    cases c with
    | none => right; simp
    | some st =>
      simp only [this, not_true_eq_false, if_false]
      cases he : P.enc (.cbc _) st packet with
      | none => right; exact ⟨rfl, trivial, .inr ⟨_, _, _, he⟩⟩
      | some r =>
        left
        exact ⟨_, _, rfl, henc _ _ _ _ _ he, fun seq mac hm => ⟨st, _, _, mac, rfl, he, hm, rfl, rfl⟩⟩
  · rw [hid] at hbs
    have hbs : s.blockSz = 16 := hbs
    have : packet.length % 16 = 0 := by rw [hbs] at hb; omega
    cases c with
    | none => right; simp
    | some st =>
      simp only [this, not_true_eq_false, if_false]
      cases he : P.enc (.ctr _) st packet with
      | none => right; exact ⟨rfl, trivial, .inr ⟨_, _, _, he⟩⟩
      | some r =>
        left
        exact ⟨_, _, rfl, henc _ _ _ _ _ he, fun seq mac hm => ⟨st, _, _, mac, rfl, he, hm, rfl, rfl⟩⟩
  · rw [hid] at ha; simp [aeadModeForId] at ha

theorem encryptAead_spec (P : Prims) (hs : Sizes P) {s : Suite} (h : SuiteOk s) (ha : s.aead = true)
    (c : Option P.State) (hc : c ≠ none) (seq : Nat) (H body : Bytes) (h4 : H.length = 4) :
    (∃ ct tag, encryptAead P s c body H = (none, ct, tag) ∧ ct.length = body.length ∧ tag.length = 16 ∧
      Sealed P s c seq (H ++ body) (H ++ (ct ++ tag)) c) ∨
    (∃ e, encryptAead P s c body H = (some e, body, []) ∧
      (∃ id st iv x aad n, P.gcmSeal id st iv x aad n = none)) := by
  have hm := suite_macSz h
  rw [ha] at hm
  have hm : s.macSz = 16 := hm
  have hs' := hs.gcmSeal
  have hi := suite_aead h
  rw [ha] at hi
  unfold encryptAead Sealed
  rw [hm]
  have e1 : (H ++ body).drop 4 = body := by rw [← h4]; simp
  have e2 : (H ++ body).take 4 = H := by rw [← h4]; simp
  rw [e1, e2]
  cases hid : s.encId with
  | none => rw [hid] at hi; simp [aeadModeForId] at hi
  | unknown => rw [hid] at hi; simp [aeadModeForId] at hi
  | cbc k => rw [hid] at hi; simp [aeadModeForId] at hi
  | ctr k => rw [hid] at hi; simp [aeadModeForId] at hi
  | gcm k =>
    cases c with
    | none => exact absurd rfl hc
    | some st =>
      simp only
      cases hg : P.gcmSeal (.gcm k) st s.iv body H 16 with
      | none => right; exact ⟨_, rfl, _, _, _, _, _, _, hg⟩
      | some r =>
        obtain ⟨ct, tag⟩ := r
        obtain ⟨l1, l2⟩ := hs' _ _ _ _ _ _ _ _ hg
        left
        exact ⟨ct, tag, rfl, l1, l2, st, ct, tag, rfl, hg, rfl, trivial⟩

theorem suite_iv {s : Suite} (h : SuiteOk s) (iv : Bytes) (hiv : iv.length = 12) :
    SuiteOk { s with iv := iv } := by
  refine ⟨h.1, h.2.1, ?_, fun _ => hiv⟩
  have e : ∀ a b c i k m, setAlgoIds a b c iv k m = { setAlgoIds a b c i k m with iv := iv } := by
    intros; unfold setAlgoIds; split <;> rfl
  show _ = setAlgoIds s.encId (aeadModeForId s.encId) s.macId iv s.encKey s.macKey
  rw [e _ _ _ s.iv, ← h.2.2.1]

/-- What `bundleSeal` does to a finished packet `F` at the end of the output. -/
theorem bundleSeal_spec {P : Prims} (hs : Sizes P) (s : Ssh P) (h : SuiteOk s.suite) (hk : Keyed s)
    (A F M Z : Bytes) (hF : 5 ≤ F.length) (hM : M.length = s.suite.macSz)
    (hsz : (A ++ (F ++ (M ++ Z))).length = s.out.bufferSz) (hlt : s.out.bufferSz < 2^32)
    (hb : s.suite.blockSz ∣ (if s.suite.aead then 0 else 4) + (F.length - 4)) :
    (∃ c' iv' hw' wire, bundleSeal s (A ++ (F ++ (M ++ Z))) A.length F.length (A.length + F.length) =
        some (none, { s with seq := add32 s.seq 1, cipher := c', hw := hw'
                             suite := { s.suite with iv := iv' }
                             out := { s.out with mem := A ++ (wire ++ Z), length := A.length + wire.length } }) ∧
      Sealed P s.suite s.cipher s.seq F wire c' ∧ NextNonce s.suite iv' ∧
      wire.length = F.length + s.suite.macSz ∧
      ∃ n, hw' = { s.hw with txCount := add32 s.hw.txCount n, txMsgCount := add32 s.hw.txMsgCount 1 }) ∨
    (∃ e s' X, bundleSeal s (A ++ (F ++ (M ++ Z))) A.length F.length (A.length + F.length) = some (some e, s') ∧
      (∀ rng, Faulty P rng) ∧ s'.out = { s.out with mem := A ++ X } ∧ (A ++ X).length = s.out.bufferSz ∧
      SuiteOk s'.suite ∧ Keyed s' ∧ s'.seq = s.seq) := by
  have hm := suite_macSz h
  have hlen := hsz
  simp only [List.length_append] at hlen
  unfold bundleSeal
  cases ha : s.suite.aead with
  | false =>
    rw [ha] at hm hb
    simp only [Bool.false_eq_true, if_false] at hm hb
    simp only [if_true]
    have e1 : add32 (A.length + F.length) (macSzForId s.suite.macId) = A.length + F.length + s.suite.macSz := by
      unfold add32; omega
    rw [e1, if_neg (by omega)]
    have e2 : write (A ++ (F ++ (M ++ Z))) (A.length + F.length) (List.replicate (macSzForId s.suite.macId) 0)
        = some (A ++ (F ++ (List.replicate (macSzForId s.suite.macId) 0 ++ Z))) := by
      rw [← List.append_assoc, write_mid _ M Z _ _ (by simp) (by simp; omega)]
      simp
    have e3 : Buffer.read (A ++ (F ++ (M ++ Z))) A.length F.length = some F :=
      read_mid _ _ _ _ _ rfl rfl
    rw [e2, e3]
    simp only
    have hdiv : s.suite.blockSz ∣ F.length := by
      have : 4 + (F.length - 4) = F.length := by omega
      rwa [this] at hb
    rcases createMac_spec P hs h ha s.seq F with ⟨mac, hc, hml, hmac⟩ | ⟨hc, hf⟩
    · rw [hc]
      simp only
      have e4 : write (A ++ (F ++ (List.replicate (macSzForId s.suite.macId) 0 ++ Z))) (A.length + F.length) mac
          = some (A ++ (F ++ (mac ++ Z))) := by
        rw [← List.append_assoc, write_mid _ _ Z mac _ (by simp) (by simp; omega)]
        simp
      rw [e4]
      simp only
      rcases encrypt_spec P hs h ha s.cipher F (by omega) hdiv with ⟨c', ct, he, hcl, hseal⟩ | ⟨he, hn, hf⟩
      · rw [he]
        simp only
        rw [write_mid A F _ ct _ rfl (by omega)]
        simp only
        left
        have e5 : add32 (A.length + F.length) s.suite.macSz = A.length + (ct ++ mac).length := by
          unfold add32; simp; omega
        rw [e5]
        rw [if_neg (by omega : ¬ F.length = 0)]
        refine ⟨c', s.suite.iv, { s.hw with txCount := add32 s.hw.txCount F.length, txMsgCount := add32 s.hw.txMsgCount 1 },
          ct ++ mac, ?_, hseal _ _ hmac, ?_, by simp; omega, F.length, rfl⟩
        · simp only [List.append_assoc]
        · have := suite_aead h
          unfold NextNonce
          rw [ha] at this
          cases hid : s.suite.encId <;> simp [hid, aeadModeForId] at this ⊢
      · rw [he]
        simp only
        rw [write_mid A F _ F _ rfl rfl]
        simp only
        right
        refine ⟨_, _, F ++ (mac ++ Z), rfl, ?_, rfl, by simp; omega, h, hk, rfl⟩
        intro rng
        rcases hf with hf | hf
        · rcases hk with hk | hk
          · exact absurd hk hn
          · exact absurd hf hk
        · exact .inr (.inr (.inl hf))
    · rw [hc]
      simp only
      right
      have e4 : write (A ++ (F ++ (List.replicate (macSzForId s.suite.macId) 0 ++ Z))) (A.length + F.length) []
          = some (A ++ (F ++ (List.replicate (macSzForId s.suite.macId) 0 ++ Z))) := by
        rw [← List.append_assoc]
        exact write_mid (A ++ F) [] _ [] _ (by simp) rfl
      rw [e4]
      exact ⟨_, _, _, rfl, fun _ => .inr (.inl hf), rfl, by simp; omega, h, hk, rfl⟩
  | true =>
    rw [ha] at hm
    simp only [if_true] at hm
    simp only [Bool.true_eq_false, if_false]
    obtain ⟨H, B, rfl, hH, hB⟩ := split_at F 4 (by omega)
    have e1 : Buffer.read (A ++ (H ++ B ++ (M ++ Z))) A.length 4 = some H := by
      rw [List.append_assoc]; exact read_mid _ _ _ _ _ rfl hH.symm
    have e2 : Buffer.read (A ++ (H ++ B ++ (M ++ Z))) (A.length + 4) ((H ++ B).length - 4) = some B := by
      rw [List.append_assoc, ← List.append_assoc A]
      exact read_mid _ _ _ _ _ (by simp; omega) (by simp; omega)
    rw [e1, e2]
    simp only
    have hid := suite_aead h
    have hc : s.cipher ≠ none := by
      rcases hk with hk | hk
      · rw [hk, ha] at hid; simp [aeadModeForId] at hid
      · exact hk
    have hiv := h.2.2.2 ha
    have hn : NextNonce s.suite (aeadIncrementExpIv s.suite.iv) := by
      rw [ha] at hid
      unfold NextNonce
      obtain ⟨i1, i2, i3⟩ := increment_spec _ hiv
      cases hide : s.suite.encId <;> simp [hide, aeadModeForId] at hid ⊢
      exact ⟨by omega, i2, i3⟩
    have hiv' := (increment_spec _ hiv).1
    rcases encryptAead_spec P hs h ha s.cipher hc s.seq H B hH with ⟨ct, tag, he, l1, l2, hseal⟩ | ⟨e, he, hf⟩
    · rw [he]
      simp only
      have e4 : write (A ++ (H ++ B ++ (M ++ Z))) (A.length + 4) ct = some (A ++ (H ++ ct ++ (M ++ Z))) := by
        rw [List.append_assoc, ← List.append_assoc A, write_mid _ B _ ct _ (by simp; omega) (by omega)]
        simp
      rw [e4]
      simp only
      have e5 : write (A ++ (H ++ ct ++ (M ++ Z))) (A.length + (H ++ B).length) tag
          = some (A ++ (H ++ (ct ++ tag) ++ Z)) := by
        rw [← List.append_assoc A, write_mid _ M Z tag _ (by simp; omega) (by omega)]
        simp
      rw [e5]
      simp only
      left
      have e6 : add32 (A.length + (H ++ B).length) s.suite.macSz = A.length + (H ++ (ct ++ tag)).length := by
        unfold add32; simp at hlen ⊢; omega
      rw [e6]
      exact ⟨s.cipher, _, _, H ++ (ct ++ tag), rfl, hseal, hn, by simp; omega, _, rfl⟩
    · rw [he]
      simp only
      have e4 : write (A ++ (H ++ B ++ (M ++ Z))) (A.length + 4) B = some (A ++ (H ++ B ++ (M ++ Z))) := by
        rw [List.append_assoc, ← List.append_assoc A, write_mid _ B _ B _ (by simp; omega) (by omega)]
      rw [e4]
      simp only
      have e5 : write (A ++ (H ++ B ++ (M ++ Z))) (A.length + (H ++ B).length) []
          = some (A ++ (H ++ B ++ (M ++ Z))) := by
        rw [← List.append_assoc A]
        exact write_mid _ [] _ [] _ (by simp) rfl
      rw [e5]
      simp only
      right
      refine ⟨_, _, _, rfl, fun _ => .inr (.inr (.inr hf)), rfl, by simpa using hsz, suite_iv h _ hiv', hk, rfl⟩

theorem unread_mid (A Y Z : Bytes) (b : Buf) (hm : b.mem = A ++ (Y ++ Z)) (hi : b.idx ≤ A.length)
    (hl : b.length = A.length + Y.length) : unread b = A.drop b.idx ++ Y := by
  unfold unread
  rw [hm, hl, List.drop_append_of_le_length hi, ← List.append_assoc]
  rw [List.take_append_of_le_length (by simp; omega)]
  exact List.take_of_length_le (by simp; omega)

theorem sealed_keyed {P : Prims} {su : Suite} {c c' : Option P.State} {seq : Nat} {p w : Bytes}
    (h : Sealed P su c seq p w c') (hk : su.encId = .none ∨ c ≠ none) : su.encId = .none ∨ c' ≠ none := by
  unfold Sealed at h
  cases hid : su.encId <;> simp only [hid] at h hk ⊢
  · simp
  · obtain ⟨_, _, _, _, _, _, _, _, rfl⟩ := h; simp
  · obtain ⟨_, _, _, _, _, _, _, _, rfl⟩ := h; simp
  · obtain ⟨_, _, _, rfl, _, _, rfl⟩ := h; simp

/-- The outcome of a sender up to the send, `u` being what was queued before. -/
def Outcome {P : Prims} (rng : Nat → Option Bytes) (s : Ssh P) (payload u : Bytes) (r : Option Err) (s' : Ssh P) : Prop :=
  Ok s'.out ∧ SuiteOk s'.suite ∧ Keyed s' ∧
    ((r = none ∧ ∃ pad wire, GoodPad s.suite.blockSz s.suite.aead payload pad ∧
        Sealed P s.suite s.cipher s.seq (framed payload pad) wire s'.cipher ∧
        NextNonce s.suite s'.suite.iv ∧ s'.suite = { s.suite with iv := s'.suite.iv } ∧
        unread s'.out = u ++ wire ∧ s'.seq = add32 s.seq 1 ∧
        wire.length = payload.length + pad.length + 5 + s.suite.macSz ∧
        ∃ n, s'.hw = { s.hw with txCount := add32 s.hw.txCount n, txMsgCount := add32 s.hw.txMsgCount 1 }) ∨
     (∃ e, r = some e ∧ Faulty P rng ∧ s'.seq = s.seq ∧ ∃ junk, unread s'.out = u ++ junk))

theorem bundle_spec {P : Prims} (hs : Sizes P) (rng : Nat → Option Bytes)
    (hr : Generator rng) (s : Ssh P) (h : SuiteOk s.suite) (hk : Keyed s)
    (A H payload D M Z : Bytes) (p : Nat) (hp : paddingSz s.suite.blockSz s.suite.aead payload.length = some p)
    (hp4 : 4 ≤ p) (hpb : p ≤ 255)
    (hdiv : s.suite.blockSz ∣ (if s.suite.aead then 0 else 4) + 1 + payload.length + p)
    (hmem : s.out.mem = A ++ (H ++ (payload ++ (D ++ (M ++ Z))))) (hH : H.length = 5) (hD : D.length = p)
    (hM : M.length = s.suite.macSz) (hml : s.out.mem.length = s.out.bufferSz) (hlt : s.out.bufferSz < 2^32)
    (hst : s.out.dyn = false → s.out.bufferSz = 16)
    (hidx : s.out.idx ≤ A.length) (hl : s.out.length = A.length + 5 + payload.length) (hsi : s.startIdx = A.length) :
    ∃ r s', bundlePacket rng s = some (r, s') ∧ Outcome rng s payload (A.drop s.out.idx) r s' := by
  rw [hmem] at hml
  have hlen := hml
  simp only [List.length_append] at hlen
  unfold bundlePacket
  simp only [hl, hsi, hmem]
  have e3 : sub32 (sub32 (sub32 (A.length + 5 + payload.length) A.length) 4) 1 = payload.length := by
    unfold sub32; omega
  rw [e3, hp]
  simp only
  have e4 : add32 (add32 1 payload.length) p = 1 + payload.length + p := by unfold add32; omega
  rw [e4, write_mid A H _ (c32toa (1 + payload.length + p) ++ [UInt8.ofNat p]) _ rfl (by simp [c32toa]; omega)]
  simp only
  have e5 : add32 (A.length + 5 + payload.length) p = A.length + 5 + payload.length + p := by
    unfold add32; omega
  rw [e5, if_neg (by omega)]
  cases hrng : (if s.suite.encId = .none then some (List.replicate p (0 : Byte)) else rng p) with
  | none =>
    simp only
    refine ⟨_, _, rfl, ⟨by simp; omega, by simp; omega, by simp [c32toa]; omega, hlt, hst⟩, h, hk, .inr ⟨_, rfl, ?_, rfl, ?_⟩⟩
    · left
      split at hrng
      · cases hrng
      · exact ⟨_, hrng⟩
    · refine ⟨(c32toa (1 + payload.length + p) ++ [UInt8.ofNat p]) ++ payload, ?_⟩
      exact unread_mid A _ (D ++ (M ++ Z)) _ (by simp) (by simp; omega) (by simp [c32toa]; omega)
  | some pad =>
    have hpl : pad.length = p := by
      split at hrng
      · cases hrng; simp
      · exact hr _ _ hrng
    simp only
    have e6 : write (A ++ (c32toa (1 + payload.length + p) ++ [UInt8.ofNat p] ++ (payload ++ (D ++ (M ++ Z)))))
        (A.length + 5 + payload.length) pad =
        some (A ++ (framed payload pad ++ (M ++ Z))) := by
      have : A ++ (c32toa (1 + payload.length + p) ++ [UInt8.ofNat p] ++ (payload ++ (D ++ (M ++ Z)))) =
          (A ++ (c32toa (1 + payload.length + p) ++ [UInt8.ofNat p] ++ payload)) ++ (D ++ (M ++ Z)) := by simp
      rw [this, write_mid _ D _ pad _ (by simp [c32toa]; omega) (by omega)]
      unfold framed
      rw [← Wolf.Wire.c32toa_eq, hpl]
      simp
    rw [e6]
    simp only
    have hFl : (framed payload pad).length = 5 + payload.length + p := by
      unfold framed; rw [← Wolf.Wire.c32toa_eq]; simp [c32toa]; omega
    have e7 : add32 (sub32 (A.length + 5 + payload.length) A.length) p = (framed payload pad).length := by
      rw [hFl]; unfold add32 sub32; omega
    have e8 : A.length + 5 + payload.length + p = A.length + (framed payload pad).length := by rw [hFl]; omega
    rw [e7, e8]
    have hdiv' : s.suite.blockSz ∣ (if s.suite.aead then 0 else 4) + ((framed payload pad).length - 4) := by
      rw [hFl]
      have : (if s.suite.aead then 0 else 4) + (5 + payload.length + p - 4) =
        (if s.suite.aead then 0 else 4) + 1 + payload.length + p := by omega
      rwa [this]
    rcases bundleSeal_spec hs s h hk A (framed payload pad) M Z (by omega) hM
      (by simp; omega) (by omega) hdiv' with
      ⟨c', iv', hw', wire, hb, hse, hnn, hwl, n, hhw⟩ | ⟨e, s', X, hb, hf, hout, hXl, hso, hks, hsq⟩
    · rw [hb]
      refine ⟨_, _, rfl, ⟨by simp; omega, by simp; omega, by simp; omega, hlt, hst⟩,
        ?_, ?_, .inl ⟨rfl, pad, wire, ⟨by omega, by omega, by rw [hpl]; exact hdiv⟩, hse, hnn, rfl, ?_, rfl, by omega, n, hhw⟩⟩
      · unfold NextNonce at hnn
        cases hid : s.suite.encId <;> simp only [hid] at hnn
        · subst hnn; exact h
        · subst hnn; exact h
        · subst hnn; exact h
        · have := suite_aead h
          rw [hid] at this
          exact suite_iv h _ (by rw [hnn.1]; exact h.2.2.2 this)
        · exact absurd hid h.1
      · have := sealed_keyed hse hk
        exact this
      · exact unread_mid A wire Z _ rfl (by simp; omega) rfl
    · rw [hb]
      refine ⟨_, _, rfl, ?_, hso, hks, .inr ⟨e, rfl, hf _, hsq, ?_⟩⟩
      · rw [hout]
        exact ⟨by simp; omega, by simp; omega, hXl, hlt, hst⟩
      · obtain ⟨X1, X2, rfl, hX1, hX2⟩ := split_at X (5 + payload.length) (by simp at hXl; omega)
        refine ⟨X1, ?_⟩
        rw [hout]
        exact unread_mid A X1 X2 _ rfl (by simp; omega) (by simp; omega)

/-- `PreparePacket` and writing the payload. -/
theorem prepare_spec {P : Prims} (alloc : Nat → Option Bytes) (ha : Allocator alloc)
    (s : Ssh P) (ho : Ok s.out) (h : SuiteOk s.suite)
    (est : Nat) (payload : Bytes) (hle : payload.length + 3 ≤ est + s.suite.blockSz)
    (hsz : est + (unread s.out).length + 200 < 2^32) :
    (∃ s0 s1, preparePacket alloc s est = some (none, s0) ∧ putPayload s0 payload = some s1 ∧
      s1.suite = s.suite ∧ s1.cipher = s.cipher ∧ s1.seq = s.seq ∧ s1.hw = s.hw ∧
      ∃ A H D M Z p, paddingSz s.suite.blockSz s.suite.aead payload.length = some p ∧ 4 ≤ p ∧ p ≤ 255 ∧
        s.suite.blockSz ∣ (if s.suite.aead then 0 else 4) + 1 + payload.length + p ∧
        s1.out.mem = A ++ (H ++ (payload ++ (D ++ (M ++ Z)))) ∧ H.length = 5 ∧ D.length = p ∧
        M.length = s.suite.macSz ∧ s1.out.mem.length = s1.out.bufferSz ∧ s1.out.bufferSz < 2^32 ∧
        (s1.out.dyn = false → s1.out.bufferSz = 16) ∧ s1.out.idx ≤ A.length ∧
        s1.out.length = A.length + 5 + payload.length ∧ s1.startIdx = A.length ∧
        A.drop s1.out.idx = unread s.out) ∨
    (preparePacket alloc s est = some (some .memory, s) ∧ ∃ n, alloc n = none) := by
  have hu := Props.Buffer.unread_length ho
  have hblk := suite_block h
  have hm := suite_macSz h
  have hmle : s.suite.macSz ≤ 64 := by
    rw [hm]; split
    · omega
    · cases s.suite.macId <;> simp [macSzForId]
  have hcur := ho.cursor
  unfold preparePacket
  rw [if_neg (by omega)]
  simp only
  have e1 : add32 (add32 4 (add32 (add32 1 est) (s.suite.blockSz * 2 % 256))) s.suite.macSz
      = 5 + est + s.suite.blockSz * 2 + s.suite.macSz := by
    unfold add32; omega
  rw [e1]
  obtain ⟨r, b, hg, hok, hun, hcase⟩ :=
    Props.Buffer.C38_grow_partial alloc ha s.out ho (5 + est + s.suite.blockSz * 2 + s.suite.macSz) (by omega)
  rw [hg]
  rcases hcase with ⟨rfl, hroom⟩ | ⟨rfl, rfl, hn⟩
  · left
    have hbl := hok.cursor
    have hbm := hok.mem
    have hbs := hok.size
    obtain ⟨A, R, hAR, hA, hR⟩ := split_at b.mem b.length (by omega)
    obtain ⟨H, R1, rfl, hH, hR1⟩ := split_at R 5 (by omega)
    obtain ⟨Q, R2, rfl, hQ, hR2⟩ := split_at R1 payload.length (by omega)
    obtain ⟨p, hp, hp4, hpb, hdiv⟩ := paddingSz_spec s.suite.blockSz s.suite.aead payload hblk
    obtain ⟨D, R3, rfl, hD, hR3⟩ := split_at R2 p (by omega)
    obtain ⟨M, Z, rfl, hM, hZ⟩ := split_at R3 s.suite.macSz (by omega)
    have el : add32 b.length 5 = A.length + 5 := by unfold add32; omega
    have el2 : add32 (A.length + 5) payload.length = A.length + 5 + payload.length := by unfold add32; omega
    have hAd : A.drop b.idx = unread s.out := by
      rw [← hun, unread_mid A [] (H ++ (Q ++ (D ++ (M ++ Z)))) b hAR (by omega) (by simp; omega)]
      simp
    have e2 : write (A ++ (H ++ (Q ++ (D ++ (M ++ Z))))) (A.length + 5) payload =
        some (A ++ (H ++ (payload ++ (D ++ (M ++ Z))))) := by
      rw [← List.append_assoc, write_mid _ Q _ payload _ (by simp; omega) hQ]; simp
    unfold putPayload
    refine ⟨_, _, rfl, (by simp only [el, hAR, e2, el2]; rfl), ?_⟩
    refine ⟨rfl, rfl, rfl, rfl, A, H, D, M, Z, p, hp, hp4, by omega, hdiv, rfl, hH, hD, hM, ?_, hbs, hok.static, by simp; omega,
      rfl, hA.symm, hAd⟩
    simp; omega
  · right
    exact ⟨rfl, hn⟩

/-- What a sender up to the send does. -/
theorem queue_spec {P : Prims} (hs : Sizes P) (alloc rng : Nat → Option Bytes) (ha : Allocator alloc)
    (hr : Generator rng) (s : Ssh P) (ho : Ok s.out) (h : SuiteOk s.suite) (hk : Keyed s)
    (est : Nat) (payload : Bytes) (hle : payload.length + 3 ≤ est + s.suite.blockSz)
    (hsz : est + (unread s.out).length + 200 < 2^32) :
    ∃ r s', queue alloc rng s est payload = some (r, s') ∧
      (Outcome rng s payload (unread s.out) r s' ∨ (r = some .memory ∧ s' = s ∧ ∃ n, alloc n = none)) := by
  unfold queue
  rcases prepare_spec alloc ha s ho h est payload hle hsz with
    ⟨s0, s1, hp, hq, e1, e2, e3, e4, A, H, D, M, Z, p, hpad, hp4, hpb, hdiv, hmem, hH, hD, hM, hml, hlt, hst, hidx, hl, hsi, hu⟩ | ⟨hp, hn⟩
  · rw [hp]
    simp only
    rw [hq]
    simp only
    rw [← e1] at h hpad hdiv hM
    have hk1 : Keyed s1 := by unfold Keyed; rw [e1, e2]; exact hk
    obtain ⟨r, s', hb, hO⟩ := bundle_spec hs rng hr s1 h hk1 A H payload D M Z p hpad hp4 hpb hdiv hmem hH hD hM hml
      hlt hst hidx hl hsi
    refine ⟨r, s', hb, .inl ?_⟩
    unfold Outcome at hO ⊢
    rw [e1, e2, e3, e4, hu] at hO
    exact hO
  · rw [hp]
    exact ⟨_, _, rfl, .inr ⟨rfl, rfl, hn⟩⟩

end Proofs.Packet
