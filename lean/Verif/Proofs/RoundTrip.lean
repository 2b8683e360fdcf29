import Verif.Proofs.ReceiveSeg
/-!
# What the sender puts on the wire, received
-/

namespace Proofs.Receive
open Wolf Wolf.Buffer Wolf.Packet Wolf.Receive Wolf.Wire Spec.Packet Spec.Buffer Spec.Receive
open Proofs.Packet Props.Buffer

variable {P : Prims} {A : Type}

theorem framed_length (payload pad : Bytes) : (framed payload pad).length = 5 + payload.length + pad.length := by
  simp [framed, Spec.Wire.encUint32]; omega

theorem framed_head (payload pad : Bytes) :
    (framed payload pad).take 4 = Spec.Wire.encUint32 (1 + payload.length + pad.length) := by
  simp [framed, Spec.Wire.encUint32]

theorem judge_framed (H : Handlers P A) (a : A) (msg : Byte) (body pad mac : Bytes) (h4 : 4 ≤ pad.length)
    (h255 : pad.length ≤ 255) :
    judge H a (1 + (msg :: body).length + pad.length) (framed (msg :: body) pad ++ mac) =
      if H.allowed a msg = false then .error .msgNotAllowed else .ok (msg, body) := by
  have e4 : (framed (msg :: body) pad ++ mac).drop 4 = UInt8.ofNat pad.length :: msg :: (body ++ pad ++ mac) := by
    simp [framed, Spec.Wire.encUint32]
  have e5 : (framed (msg :: body) pad ++ mac).drop 5 = msg :: (body ++ pad ++ mac) := by
    rw [show (5:Nat) = 4 + 1 from rfl, ← List.drop_drop, e4]; rfl
  have e6 : (framed (msg :: body) pad ++ mac).drop 6 = body ++ pad ++ mac := by
    rw [show (6:Nat) = 4 + 2 from rfl, ← List.drop_drop, e4]; rfl
  have ep : (UInt8.ofNat pad.length).toNat = pad.length := by
    rw [UInt8.toNat_ofNat']; omega
  unfold judge
  rw [e4, e5, e6]
  simp only [List.headD_cons, ep, List.length_cons]
  rw [if_neg (by omega), if_neg (by omega)]
  have : 1 + (body.length + 1) + pad.length - 1 - pad.length - 1 = body.length := by omega
  rw [this, List.append_assoc, List.take_left]

/-- What handing over the message of a well-formed packet makes of the stream. -/
def handed (H : Handlers P A) (v : View P A) (msg : Byte) (body rest : Bytes) : Out P A :=
  if H.allowed v.app msg = false then .bad .msgNotAllowed v.log
  else match handOver H v msg body with
    | .refused e => .bad e v.log
    | .held v' => .bad .authPending v'.log
    | .done r v' => .done r v' rest

theorem act_framed (H : Handlers P A) (v : View P A) (msg : Byte) (body pad mac rest : Bytes) (h4 : 4 ≤ pad.length)
    (h255 : pad.length ≤ 255) :
    (match act H v (1 + (msg :: body).length + pad.length) (framed (msg :: body) pad ++ mac) with
      | .refused e => Out.bad e v.log
      | .held v' => .bad .authPending v'.log
      | .done r v' => .done r v' rest) = handed H v msg body rest := by
  unfold act handed
  rw [judge_framed H v.app msg body pad mac h4 h255]
  by_cases h : H.allowed v.app msg = false
  · rw [if_pos h, if_pos h]
  · rw [if_neg h, if_neg h]

theorem verifyMac_of {s : Suite} (h : SuiteOk s) {seq : Nat} {packet mac : Bytes}
    (hm : MacOf P s seq packet mac) : verifyMac P s seq packet mac = none := by
  unfold MacOf at hm
  unfold verifyMac
  rw [← c32toa_eq] at hm
  have h2 := h.2.1
  cases hid : s.macId <;> simp only [hid, ne_eq, not_true_eq_false, reduceCtorEq, not_false_eq_true] at h2 hm ⊢
  all_goals
    obtain ⟨d, hd, he⟩ := hm
    rw [hd]
    simp only
    rw [if_pos he.symm]

theorem macOf_length (hsz : Sizes P) {s : Suite} (h : SuiteOk s) (hne : s.aead = false) {seq : Nat} {packet mac : Bytes}
    (hm : MacOf P s seq packet mac) : mac.length = s.macSz := by
  have hms := suite_macSz h
  rw [hne] at hms
  simp only [Bool.false_eq_true, if_false] at hms
  have hh := hsz.hmac
  unfold MacOf at hm
  rw [hms]
  cases hid : s.macId <;> simp only [hid] at hm ⊢
  · rw [hm]; rfl
  all_goals
    obtain ⟨d, hd, he⟩ := hm
    have := hh _ _ _ _ hd
    rw [hms, hid] at he
    rw [he, List.length_take]; omega

/-- A packet under encrypt-and-MAC, of which the parts decrypt as they should. -/
theorem one_plain (hsz : Sizes P) (H : Handlers P A) (v : View P A) (hs : SuiteOk v.suite) (hne : v.suite.aead = false)
    (msg : Byte) (body pad mac w1 w2 rest : Bytes) (c1 c2 : Option P.State)
    (hp : GoodPad v.suite.blockSz false (msg :: body) pad)
    (hz : 1 + (msg :: body).length + pad.length ≤ 35000 - v.suite.macSz - 4)
    (hm : MacOf P v.suite v.seq (framed (msg :: body) pad) mac) (h1 : w1.length = v.suite.blockSz)
    (h2 : w2.length = (framed (msg :: body) pad).length - v.suite.blockSz)
    (hf : decrypt P v.suite.encId v.cipher w1 = (none, c1, (framed (msg :: body) pad).take v.suite.blockSz))
    (hd : if w2 = [] then c2 = c1 else
      decrypt P v.suite.encId c1 w2 = (none, c2, (framed (msg :: body) pad).drop v.suite.blockSz)) :
    ∃ ev, CheckOf v.suite v.seq (framed (msg :: body) pad) ev ∧
      one H v (w1 ++ (w2 ++ (mac ++ rest))) =
        handed H { v with cipher := c2, log := v.log ++ [ev] } msg body rest := by
  have hblk := suite_block hs
  have hml := macOf_length hsz hs hne hm
  have hvm := verifyMac_of hs hm
  have hFl := framed_length (msg :: body) pad
  have hF4 := framed_head (msg :: body) pad
  obtain ⟨hp4, hp255, hdiv⟩ := hp
  have hact := fun (v : View P A) (mac : Bytes) => act_framed H v msg body pad mac rest hp4 hp255
  simp only [Bool.false_eq_true, if_false] at hdiv
  have hdiv : v.suite.blockSz ∣ (framed (msg :: body) pad).length := by rw [hFl]; omega
  revert hz hm hvm hFl hF4 hf hd h2 hdiv hact
  generalize hcs : 1 + (msg :: body).length + pad.length = cs
  generalize framed (msg :: body) pad = F
  intro hz hm h2 hf hd hvm hFl hF4 hact hdiv
  have hFl : F.length = 4 + cs := by rw [hFl, ← hcs]; omega
  have hcs6 : 6 ≤ cs := by rw [← hcs]; simp only [List.length_cons]; omega
  have hge : v.suite.blockSz ≤ F.length := Nat.le_of_dvd (by omega) hdiv
  refine ⟨.verified v.suite v.seq F mac, by simp [CheckOf], ?_⟩
  unfold one
  rw [if_neg (by rw [List.length_append]; omega)]
  have t1 : (w1 ++ (w2 ++ (mac ++ rest))).take v.suite.blockSz = w1 := by rw [← h1]; simp
  have d1 : (w1 ++ (w2 ++ (mac ++ rest))).drop v.suite.blockSz = w2 ++ (mac ++ rest) := by rw [← h1]; simp
  rw [t1, d1]
  unfold firstBlock
  rw [if_pos hne, hf]
  simp only
  have e4 : Spec.Wire.beNat ((F.take v.suite.blockSz).take 4) = cs := by
    rw [List.take_take, Nat.min_eq_left (by omega), hF4]
    exact beNat_encUint32 _ (by omega)
  rw [e4, if_neg (by omega)]
  unfold finishOne
  simp only
  have hneed : 4 + cs + v.suite.macSz - v.suite.blockSz = (w2 ++ mac).length := by
    rw [List.length_append]; omega
  rw [hneed]
  have hsplit : w2 ++ (mac ++ rest) = (w2 ++ mac) ++ rest := by simp
  rw [hsplit, List.take_left, List.drop_left]
  rw [if_neg (by rw [List.length_append]; omega)]
  have hopen : openOn P v.suite c1 v.seq cs (F.take v.suite.blockSz ++ (w2 ++ mac)) =
      .good v.suite c2 (F ++ mac) (.verified v.suite v.seq F mac) := by
    have hb : (F.take v.suite.blockSz).length = v.suite.blockSz := by simp; omega
    have hT : (F.take v.suite.blockSz ++ (w2 ++ mac)).take v.suite.blockSz = F.take v.suite.blockSz := by
      rw [List.take_append_of_le_length (by omega), List.take_of_length_le (by omega)]
    have hD : (F.take v.suite.blockSz ++ (w2 ++ mac)).drop v.suite.blockSz = w2 ++ mac := by
      rw [List.drop_append, List.drop_of_length_le (by omega), hb]; simp
    have hrest : (if 4 + cs > v.suite.blockSz then 4 + cs - v.suite.blockSz else 0) = w2.length := by
      split <;> omega
    have hu : ∀ y : Bytes, y.length = w2.length → y = F.drop v.suite.blockSz →
        (F.take v.suite.blockSz ++ (w2 ++ mac)).take v.suite.blockSz ++
        (y ++ (F.take v.suite.blockSz ++ (w2 ++ mac)).drop (v.suite.blockSz + y.length)) = F ++ mac := by
      intro y hy1 hy2
      rw [hT, ← List.drop_drop, hD, hy1, List.drop_left, hy2, ← List.append_assoc, List.take_append_drop]
    have hF : (F ++ mac).take (4 + cs) = F := by rw [← hFl]; simp
    have hM : ((F ++ mac).drop (4 + cs)).take v.suite.macSz = mac := by
      rw [← hFl, ← hml]; simp
    unfold openOn
    simp only
    rw [if_pos hne, hrest, hD, List.take_left]
    by_cases hw : w2 = []
    · rw [if_pos hw] at hd
      have hfd : F.drop v.suite.blockSz = [] := by
        rw [hw] at h2; simp only [List.length_nil] at h2
        exact List.drop_eq_nil_iff.2 (by omega)
      rw [if_neg (by rw [hw]; simp)]
      rw [hu w2 rfl (by rw [hw, hfd]), hF, hM, hvm, hd]
    · rw [if_neg hw] at hd
      rw [if_pos (List.length_pos_iff.2 hw), hd]
      simp only
      rw [hu _ (by rw [List.length_drop]; omega) rfl, hF, hM, hvm]
  rw [hopen]
  simp only
  exact hact { v with cipher := c2, log := v.log ++ [.verified v.suite v.seq F mac] } mac

/-- A packet under AES-GCM. -/
theorem one_gcm (H : Handlers P A) (v : View P A) (hs : SuiteOk v.suite) (hae : v.suite.aead = true)
    (msg : Byte) (body pad ct tag rest : Bytes)
    (hp : GoodPad v.suite.blockSz true (msg :: body) pad)
    (hz : 1 + (msg :: body).length + pad.length ≤ 35000 - v.suite.macSz - 4)
    (h1 : ct.length = 1 + (msg :: body).length + pad.length) (h2 : tag.length = 16)
    (hd : decryptAead P v.suite v.cipher ct tag ((framed (msg :: body) pad).take 4) =
      (none, (framed (msg :: body) pad).drop 4)) :
    ∃ ev, CheckOf v.suite v.seq (framed (msg :: body) pad) ev ∧
      one H v ((framed (msg :: body) pad).take 4 ++ (ct ++ (tag ++ rest))) =
        handed H { v with suite := { v.suite with iv := aeadIncrementExpIv v.suite.iv }, log := v.log ++ [ev] } msg body rest := by
  have hblk := suite_aead_block hs hae
  have hm := suite_macSz hs
  rw [hae, if_pos rfl] at hm
  have hFl := framed_length (msg :: body) pad
  have hF4 := framed_head (msg :: body) pad
  obtain ⟨hp4, hp255, _⟩ := hp
  have hact := fun (v : View P A) (mac : Bytes) => act_framed H v msg body pad mac rest hp4 hp255
  revert hz hFl hF4 hd hact h1
  generalize hcs : 1 + (msg :: body).length + pad.length = cs
  generalize framed (msg :: body) pad = F
  intro hz h1 hd hFl hF4 hact
  have hFl : F.length = 4 + cs := by rw [hFl, ← hcs]; omega
  have hcs6 : 6 ≤ cs := by rw [← hcs]; simp only [List.length_cons]; omega
  have hl4 : (F.take 4).length = 4 := by simp; omega
  refine ⟨.opened v.suite v.seq F ct tag, by simp [CheckOf], ?_⟩
  have hna : ¬ v.suite.aead = false := by simp [hae]
  unfold one
  rw [if_neg (by simp only [List.length_append]; omega)]
  unfold firstBlock
  rw [if_neg hna]
  simp only
  have e4 : Spec.Wire.beNat (((F.take 4 ++ (ct ++ (tag ++ rest))).take v.suite.blockSz).take 4) = cs := by
    rw [List.take_take, Nat.min_eq_left (by omega), List.take_append_of_le_length (by omega), List.take_take, Nat.min_self, hF4]
    exact beNat_encUint32 _ (by omega)
  rw [e4, if_neg (by omega)]
  unfold finishOne
  simp only
  have hW : F.take 4 ++ (ct ++ (tag ++ rest)) = (F.take 4 ++ (ct ++ tag)) ++ rest := by simp
  rw [hW]
  have hWl : (F.take 4 ++ (ct ++ tag)).length = 4 + cs + v.suite.macSz := by
    simp only [List.length_append]; omega
  generalize hWd : F.take 4 ++ (ct ++ tag) = W at hWl
  have d1 : (W ++ rest).drop v.suite.blockSz = W.drop v.suite.blockSz ++ rest := by
    rw [List.drop_append_of_le_length (by omega)]
  have t1 : (W ++ rest).take v.suite.blockSz = W.take v.suite.blockSz := by
    rw [List.take_append_of_le_length (by omega)]
  have hneed : 4 + cs + v.suite.macSz - v.suite.blockSz = (W.drop v.suite.blockSz).length := by
    rw [List.length_drop]; omega
  rw [d1, t1, hneed, List.take_left, List.drop_left, if_neg (by rw [List.length_append]; omega), List.take_append_drop]
  have hopen : openOn P v.suite v.cipher v.seq cs W =
      .good { v.suite with iv := aeadIncrementExpIv v.suite.iv } v.cipher (F ++ tag) (.opened v.suite v.seq F ct tag) := by
    have a1 : W.take 4 = F.take 4 := by
      rw [← hWd, List.take_append_of_le_length (by omega), List.take_of_length_le (l := F.take 4) (by omega)]
    have a2 : W.drop 4 = ct ++ tag := by
      rw [← hWd, List.drop_append, List.drop_of_length_le (by omega), hl4]; simp
    have a3 : (W.drop 4).take cs = ct := by rw [a2, ← h1]; simp
    have a4 : W.drop (4 + cs) = tag := by rw [← List.drop_drop, a2, ← h1]; simp
    have a5 : (W.drop (4 + cs)).take v.suite.macSz = tag := by
      rw [a4, hm, ← h2]; simp
    unfold openOn
    simp only
    rw [if_neg hna, if_neg (by omega), a3, a5, a1, hd]
    simp only
    have a6 : 4 + (F.drop 4).length = 4 + cs := by rw [List.length_drop]; omega
    rw [a6, a4, ← List.append_assoc, List.take_append_drop]
  rw [hopen]
  simp only
  exact hact { v with suite := { v.suite with iv := aeadIncrementExpIv v.suite.iv }, log := v.log ++ [.opened v.suite v.seq F ct tag] } tag

theorem decrypt_blocks {id : Enc} (hid : (∃ k, id = .cbc k) ∨ ∃ k, id = .ctr k) {st st' : P.State} {x y : Bytes}
    (h0 : x ≠ []) (h16 : 16 ∣ x.length) (h : P.dec id st x = some (y, st')) :
    decrypt P id (some st) x = (none, some st', y) := by
  unfold decrypt
  rw [if_neg (by cases x <;> simp_all)]
  have hz : ¬ x.length % 16 ≠ 0 := by omega
  rcases hid with ⟨k, rfl⟩ | ⟨k, rfl⟩
  · simp only [if_neg hz, h]
  · simp only [if_neg hz, h]

theorem dec_nil (hsz : Sizes P) {id : Enc} {st : P.State} {y : Bytes} {st' : P.State} (h : P.dec id st [] = some (y, st')) :
    y = [] := by
  have := hsz.dec _ _ _ _ _ h
  simpa using this

/-- A packet under CBC or CTR. -/
theorem one_blocks (hsz : Sizes P) (L : Laws P) (H : Handlers P A) (v : View P A) (hs : SuiteOk v.suite)
    (hid : (∃ k, v.suite.encId = .cbc k) ∨ ∃ k, v.suite.encId = .ctr k) (e e' d : P.State) (hc : v.cipher = some d)
    (hy : L.sync v.suite.encId e d) (msg : Byte) (body pad mac ct rest : Bytes)
    (hp : GoodPad v.suite.blockSz v.suite.aead (msg :: body) pad)
    (hz : 1 + (msg :: body).length + pad.length ≤ 35000 - v.suite.macSz - 4)
    (hm : MacOf P v.suite v.seq (framed (msg :: body) pad) mac)
    (he : P.enc v.suite.encId e (framed (msg :: body) pad) = some (ct, e')) :
    ∃ ev d', CheckOf v.suite v.seq (framed (msg :: body) pad) ev ∧ L.sync v.suite.encId e' d' ∧
      one H v (ct ++ (mac ++ rest)) =
        handed H { v with cipher := some d', log := v.log ++ [ev] } msg body rest := by
  have hae := suite_aead hs
  have hblk : v.suite.blockSz = 16 := by
    have := congrArg Suite.blockSz hs.2.2.1
    rw [this]
    rcases hid with ⟨k, h⟩ | ⟨k, h⟩ <;> simp [setAlgoIds, h, aeadModeForId, blockSzForId]
  have hne : v.suite.aead = false := by
    rw [hae]; rcases hid with ⟨k, h⟩ | ⟨k, h⟩ <;> simp [h, aeadModeForId]
  rw [hne] at hp
  have hp0 := hp
  obtain ⟨hp4, hp255, hdiv⟩ := hp0
  simp only [Bool.false_eq_true, if_false] at hdiv
  have hFl := framed_length (msg :: body) pad
  have hdiv : 16 ∣ (framed (msg :: body) pad).length := by rw [hFl, ← hblk]; omega
  have hge : 16 ≤ (framed (msg :: body) pad).length := Nat.le_of_dvd (by omega) hdiv
  have hctl := hsz.enc _ _ _ _ _ he
  obtain ⟨d', hdec, hsy⟩ := L.inverse hy hdiv he
  have hsplit : ct = ct.take 16 ++ ct.drop 16 := (List.take_append_drop 16 ct).symm
  have h16 : (ct.take 16).length = 16 := by simp; omega
  rw [hsplit] at hdec
  obtain ⟨x1, x2, d1, hd1, hd2, hx⟩ := L.parts (by rw [h16]; exact Nat.dvd_refl _) hdec
  have hx1 := hsz.dec _ _ _ _ _ hd1
  have hx2 := hsz.dec _ _ _ _ _ hd2
  have ht : (framed (msg :: body) pad).take 16 = x1 := by rw [hx, ← h16, ← hx1]; simp
  have hdr : (framed (msg :: body) pad).drop 16 = x2 := by rw [hx, ← h16, ← hx1]; simp
  by_cases hnil : ct.drop 16 = []
  · -- a packet of a single block: nothing is decrypted after it
    have hlast : 16 ∣ (framed (msg :: body) pad).length := hdiv
    have hF16 : (framed (msg :: body) pad).length = 16 := by
      have := List.drop_eq_nil_iff.1 hnil; omega
    have hct : ct.take 16 = ct := List.take_of_length_le (by omega)
    have hFt : (framed (msg :: body) pad).take 16 = framed (msg :: body) pad := List.take_of_length_le (by omega)
    obtain ⟨d2, hdec2, hsy2⟩ := L.inverse hy hdiv he
    obtain ⟨ev, h1, h2⟩ := one_plain hsz H v hs hne msg body pad mac ct [] rest (some d2) (some d2) hp hz hm
      (by omega) (by rw [hF16, hblk]; rfl)
      (by rw [hc, hblk, hFt]; exact decrypt_blocks hid (by intro h; rw [h] at hctl; simp at hctl; omega) (by omega) hdec2)
      (by simp)
    exact ⟨ev, d2, h1, hsy2, h2⟩
  · obtain ⟨ev, h1, h2⟩ := one_plain hsz H v hs hne msg body pad mac (ct.take 16) (ct.drop 16) rest (some d1) (some d') hp hz hm
      (by rw [h16, hblk]) (by rw [List.length_drop, hctl, hblk])
      (by rw [hc, hblk, ht]; exact decrypt_blocks hid (by intro h; rw [h] at h16; simp at h16) (by omega) hd1)
      (by rw [if_neg hnil, hblk, hdr]; exact decrypt_blocks hid hnil (by rw [List.length_drop]; omega) hd2)
    refine ⟨ev, d', h1, hsy, ?_⟩
    rw [← h2, ← List.append_assoc (ct.take 16), List.take_append_drop]

theorem nextNonce_iv {s : Suite} (h : SuiteOk s) (ha : s.aead = true) {iv' : Bytes} (hn : NextNonce s iv') :
    iv' = aeadIncrementExpIv s.iv := by
  have hl := h.2.2.2 ha
  rw [suite_aead h] at ha
  unfold NextNonce at hn
  cases hid : s.encId <;> simp only [hid, aeadModeForId, Bool.false_eq_true] at ha
  simp only [hid] at hn
  obtain ⟨n1, n2, n3⟩ := hn
  obtain ⟨i1, i2, i3⟩ := increment_spec s.iv hl
  rw [← List.take_append_drop 4 iv', ← List.take_append_drop 4 (aeadIncrementExpIv s.iv), n2, i2]
  congr 1
  exact beNat_inj _ _ (by simp; omega) (by rw [n3, i3])

/-- One packet of the sender's, received. -/
theorem one_sealed (hsz : Sizes P) (L : Laws P) (H : Handlers P A) (v : View P A) (hs : SuiteOk v.suite) (sc : Crypto P)
    (hin : InStep L sc v.suite v.cipher v.seq) (msg : Byte) (body pad wire rest : Bytes) (c' : Option P.State) (iv' : Bytes)
    (hz : (msg :: body).length ≤ 32768) (hp : GoodPad sc.suite.blockSz sc.suite.aead (msg :: body) pad)
    (hw : Sealed P sc.suite sc.cipher sc.seq (framed (msg :: body) pad) wire c') (hn : NextNonce sc.suite iv') :
    ∃ ev c2, CheckOf v.suite v.seq (framed (msg :: body) pad) ev ∧
      InStep L ⟨{ sc.suite with iv := iv' }, c', sc.seq⟩ { v.suite with iv := iv' } c2 v.seq ∧
      one H v (wire ++ rest) =
        handed H { v with suite := { v.suite with iv := iv' }, cipher := c2, log := v.log ++ [ev] } msg body rest := by
  obtain ⟨i1, i2, i3⟩ := hin
  rw [← i1] at hp hw hn i3
  rw [← i2] at hw
  rw [← i1, ← i2]
  have hml := suite_mac_le hs
  have hz : 1 + (msg :: body).length + pad.length ≤ 35000 - v.suite.macSz - 4 := by
    have := hp.2.1; omega
  have hiv : (∀ k, v.suite.encId ≠ .gcm k) → iv' = v.suite.iv := by
    intro h
    unfold NextNonce at hn
    cases hid : v.suite.encId <;> simp only [hid] at hn h <;> first | exact hn | exact absurd rfl (h _)
  have hae := suite_aead hs
  cases hid : v.suite.encId with
  | unknown => exact absurd hid hs.1
  | none =>
    have hv : { v.suite with iv := iv' } = v.suite := by rw [hiv (by simp [hid])]
    have hne : v.suite.aead = false := by rw [hae, hid]; rfl
    simp only [Sealed, hid] at hw
    obtain ⟨mac, hm, rfl, rfl⟩ := hw
    rw [hne] at hp
    have hp0 := hp
    obtain ⟨hp4, hp255, hdiv⟩ := hp0
    simp only [Bool.false_eq_true, if_false] at hdiv
    have hFl := framed_length (msg :: body) pad
    have hdiv : v.suite.blockSz ∣ (framed (msg :: body) pad).length := by rw [hFl]; omega
    have hblk := suite_block hs
    have hge : v.suite.blockSz ≤ (framed (msg :: body) pad).length := Nat.le_of_dvd (by omega) hdiv
    obtain ⟨ev, h1, h2⟩ := one_plain hsz H v hs hne msg body pad mac ((framed (msg :: body) pad).take v.suite.blockSz)
      ((framed (msg :: body) pad).drop v.suite.blockSz) rest v.cipher v.cipher hp hz hm (by simp; omega) (by simp)
      (by
        unfold decrypt
        rw [if_neg (by rw [List.length_take]; omega), hid])
      (by
        split
        · rfl
        · rename_i hne; unfold decrypt; rw [if_neg (fun h => hne (List.length_eq_zero_iff.1 h)), hid])
    refine ⟨ev, v.cipher, h1, ?_, ?_⟩
    · rw [hv]; exact ⟨rfl, rfl, fun h => absurd hid h⟩
    · rw [hv, ← h2, ← List.append_assoc, List.take_append_drop, List.append_assoc]
  | gcm k =>
    have hat : v.suite.aead = true := by rw [hae, hid]; rfl
    have hivv := nextNonce_iv hs hat hn
    simp only [Sealed, hid] at hw
    obtain ⟨st, ct, tag, hc, hg, rfl, rfl⟩ := hw
    obtain ⟨e, d, he, hd, hsy⟩ := i3 (by simp [hid])
    rw [hc] at he
    simp only [Option.some.injEq] at he
    subst he
    rw [hid] at hsy
    have hgo := L.gcm hsy hg
    obtain ⟨l1, l2⟩ := hsz.gcmSeal _ _ _ _ _ _ _ _ hg
    have hFl := framed_length (msg :: body) pad
    rw [List.length_drop] at l1
    rw [hat] at hp
    obtain ⟨ev, h1, h2⟩ := one_gcm H v hs hat msg body pad ct tag rest hp hz (by omega) l2
      (by unfold decryptAead; rw [hid, hd]; simp only [hgo])
    refine ⟨ev, v.cipher, h1, ⟨rfl, rfl, fun _ => ⟨st, d, hc, hd, ?_⟩⟩, ?_⟩
    · show L.sync v.suite.encId st d
      rw [hid]; exact hsy
    · rw [hivv, ← h2]; simp [List.append_assoc]
  | cbc k =>
    have hv : { v.suite with iv := iv' } = v.suite := by rw [hiv (by simp [hid])]
    simp only [Sealed, hid] at hw
    obtain ⟨st, st', ct, mac, hc, hg, hm, rfl, rfl⟩ := hw
    obtain ⟨e, d, he, hd, hsy⟩ := i3 (by simp [hid])
    rw [hc] at he
    simp only [Option.some.injEq] at he
    subst he
    obtain ⟨ev, d', h1, h2, h3⟩ := one_blocks hsz L H v hs (.inl ⟨k, hid⟩) st st' d hd hsy msg body pad mac ct rest hp hz hm
      (by rw [hid]; exact hg)
    refine ⟨ev, some d', h1, ?_, ?_⟩
    · rw [hv]; exact ⟨rfl, rfl, fun _ => ⟨st', d', rfl, rfl, h2⟩⟩
    · rw [hv, ← h3, List.append_assoc]
  | ctr k =>
    have hv : { v.suite with iv := iv' } = v.suite := by rw [hiv (by simp [hid])]
    simp only [Sealed, hid] at hw
    obtain ⟨st, st', ct, mac, hc, hg, hm, rfl, rfl⟩ := hw
    obtain ⟨e, d, he, hd, hsy⟩ := i3 (by simp [hid])
    rw [hc] at he
    simp only [Option.some.injEq] at he
    subst he
    obtain ⟨ev, d', h1, h2, h3⟩ := one_blocks hsz L H v hs (.inr ⟨k, hid⟩) st st' d hd hsy msg body pad mac ct rest hp hz hm
      (by rw [hid]; exact hg)
    refine ⟨ev, some d', h1, ?_, ?_⟩
    · rw [hv]; exact ⟨rfl, rfl, fun _ => ⟨st', d', rfl, rfl, h2⟩⟩
    · rw [hv, ← h3, List.append_assoc]

/-- `Stream` from the front. -/
inductive Front (P : Prims) : Crypto P → List Item → Bytes → Crypto P → Prop
  | nil (s : Crypto P) : Front P s [] [] s
  | packet {s : Crypto P} (payload pad wire : Bytes) (c' : Option P.State) (iv' : Bytes)
      (hp : GoodPad s.suite.blockSz s.suite.aead payload pad)
      (hs : Sealed P s.suite s.cipher s.seq (framed payload pad) wire c') (hn : NextNonce s.suite iv') {l : List Item}
      {w : Bytes} {s2 : Crypto P} (h : Front P ⟨{ s.suite with iv := iv' }, c', (s.seq + 1) % 2^32⟩ l w s2) :
      Front P s (.packet payload :: l) (wire ++ w) s2
  | raw {s : Crypto P} (line : Bytes) {l : List Item} {w : Bytes} {s2 : Crypto P} (h : Front P s l w s2) :
      Front P s (.raw line :: l) (line ++ w) s2
  | keys {s : Crypto P} (n : Suite) (c : Option P.State) (hc : FreshCipher P true n c) {l : List Item} {w : Bytes}
      {s2 : Crypto P} (h : Front P ⟨n, c, s.seq⟩ l w s2) : Front P s (.keys n :: l) w s2

theorem front_append {s s1 s2 : Crypto P} {a b : List Item} {w w' : Bytes} (h : Front P s a w s1)
    (h2 : Front P s1 b w' s2) : Front P s (a ++ b) (w ++ w') s2 := by
  induction h with
  | nil => exact h2
  | packet payload pad wire c' iv' hp hs hn _ ih =>
    rw [List.append_assoc]; exact .packet payload pad wire c' iv' hp hs hn (ih h2)
  | raw line _ ih => rw [List.append_assoc]; exact .raw line (ih h2)
  | keys n c hc _ ih => exact .keys n c hc (ih h2)

theorem stream_front {s s1 : Crypto P} {l : List Item} {w : Bytes} (h : Stream P s l w s1) : Front P s l w s1 := by
  induction h with
  | nil => exact .nil _
  | packet _ payload pad wire c' iv' hp hs hn ih =>
    refine front_append ih ?_
    rw [← List.append_nil wire]
    exact .packet payload pad wire c' iv' hp hs hn (.nil _)
  | raw _ line ih =>
    rename_i w _ _
    have := front_append ih (.raw line (.nil _))
    rwa [List.append_nil] at this
  | keys _ n c hc ih =>
    rename_i w _ _
    rw [← List.append_nil w]
    exact front_append ih (.keys n c hc (.nil _))

/-- A receiver for which `l` is still to come, being sent as `s`. -/
structure Expects (L : Laws P) (H : Handlers P A) (v : View P A) (l : List Item) (s : Bytes) : Prop where
  takes : Takes H v.app l
  size : ∀ p ∈ payloads l, Receivable p
  front : ∃ sc sc', InStep L sc v.suite v.cipher v.seq ∧ Front P sc l s sc'

theorem messages_append (a b : List Event) : messages (a ++ b) = messages a ++ messages b := by
  simp [messages]

theorem check_message {s : Suite} {q : Nat} {p : Bytes} {ev : Event} (h : CheckOf s q p ev) : messages [ev] = [] := by
  cases ev <;> simp [CheckOf] at h <;> rfl

theorem handed_takes (H : Handlers P A) (v : View P A) (m : Byte) (p rest : Bytes) (ha : H.allowed v.app m = true)
    (hp : (H.run v.app m p).1 ≠ some .authPending) :
    ∃ r v', handed H v m p rest = .done r v' rest ∧ messages v'.log = messages v.log ++ [m :: p] ∧
      v'.app = (H.highwater (H.run v.app m p).2.2.1).2 ∧ v'.seq = (v.seq + 1) % 2^32 ∧
      v'.suite = (match (H.run v.app m p).2.2.2 with | none => v.suite | some (s, _) => s) ∧
      v'.cipher = (match (H.run v.app m p).2.2.2 with | none => v.cipher | some (_, c) => c) := by
  unfold handed handOver
  rw [if_neg (by simp [ha])]
  simp only
  rw [if_neg hp]
  refine ⟨_, _, rfl, ?_, rfl, rfl, rfl, rfl⟩
  simp only [messages_append, List.append_assoc]
  rfl

/-- The next packet of what is expected is taken. -/
theorem expects_one (hsz : Sizes P) (L : Laws P) {H : Handlers P A} (hT : Tame H) {v : View P A} (hs : SuiteOk v.suite)
    {l : List Item} {s : Bytes} (h : Expects L H v l s) :
    (l = [] ∧ s = [] ∧ one H v s = .more) ∨
    ∃ p l' s' r v', payloads l = p :: payloads l' ∧ one H v s = .done r v' s' ∧
      messages v'.log = messages v.log ++ [p] ∧ Expects L H v' l' s' := by
  obtain ⟨ht, hz, sc, sc', hin, hf⟩ := h
  cases ht with
  | nil =>
    cases hf
    refine .inl ⟨rfl, rfl, ?_⟩
    unfold one
    have := suite_block hs
    rw [if_pos (by simp only [List.length_nil]; omega)]
  | packet _ m p l ha hp hk ht =>
    right
    cases hf with
    | @packet _ _ pad wire c' iv' hgp hsl hn _ w _ hf =>
      obtain ⟨ev, c2, h1, h2, h3⟩ := one_sealed hsz L H v hs sc hin m p pad wire w c' iv'
        (hz _ (by simp [payloads])).2 hgp hsl hn
      obtain ⟨r, v', g1, g2, g3, g4, g5, g6⟩ := handed_takes H
        { v with suite := { v.suite with iv := iv' }, cipher := c2, log := v.log ++ [ev] } m p w ha hp
      rw [g1] at h3
      refine ⟨m :: p, l, w, r, v', rfl, h3, ?_, ?_, ?_, ⟨_, sc', ?_, hf⟩⟩
      · rw [g2, messages_append, check_message h1, List.append_nil]
      · rw [g3]; exact ht
      · intro q hq; exact hz q (by simp [payloads, hq])
      · simp only [hk] at g5 g6
        rw [g5, g6]
        exact ⟨h2.suite, by rw [g4]; show _ = (sc.seq + 1) % 2^32; rw [← hin.seq], h2.cipher⟩
  | rekey _ m p n c l ha hp hk ht =>
    right
    cases hf with
    | @packet _ _ pad wire c' iv' hgp hsl hn _ w _ hf =>
      obtain ⟨ev, c2, h1, h2, h3⟩ := one_sealed hsz L H v hs sc hin m p pad wire w c' iv'
        (hz _ (by simp [payloads])).2 hgp hsl hn
      obtain ⟨r, v', g1, g2, g3, g4, g5, g6⟩ := handed_takes H
        { v with suite := { v.suite with iv := iv' }, cipher := c2, log := v.log ++ [ev] } m p w ha hp
      rw [g1] at h3
      cases hf with
      | keys _ cs hc hf =>
        refine ⟨m :: p, l, w, r, v', rfl, h3, ?_, ?_, ?_, ⟨_, sc', ?_, hf⟩⟩
        · rw [g2, messages_append, check_message h1, List.append_nil]
        · rw [g3]; exact ht
        · intro q hq; exact hz q (by simp [payloads, hq])
        · simp only [hk] at g5 g6
          rw [g5, g6]
          refine ⟨rfl, by rw [g4]; show _ = (sc.seq + 1) % 2^32; rw [← hin.seq], fun hne => ?_⟩
          have hfc := (hT.keys _ _ _ _ _ hk).2
          simp only at hne
          unfold FreshCipher at hc hfc
          cases hid : n.encId <;> simp only [hid] at hc hfc hne
          · exact absurd rfl hne
          all_goals
            obtain ⟨e, he, hce⟩ := hc
            obtain ⟨d, hd, hcd⟩ := hfc
            exact ⟨e, d, hce, hcd, L.fresh he hd⟩

theorem rel_suite {q : Nat} {v : View P A} {s : Bytes} {x : Conn P A} (h : Rel q v s x) : SuiteOk v.suite := by
  cases h with
  | init b cs io net hi hs hw => exact hi.suite
  | finish b cs io net first c1 hi _ _ _ _ _ => exact hi.suite

/-- A call on a connection that expects `l`. -/
theorem expects_call (hsz : Sizes P) (L : Laws P) {H : Handlers P A} (hT : Tame H) {alloc : Nat → Option Bytes}
    (hal : Allocator alloc) (io : List IoRecv) {q : Nat} {v : View P A} {l : List Item} {s : Bytes} {x : Conn P A}
    (hr : Rel q v s x) (h : Expects L H v l s) :
    ∃ r y, doReceive H alloc { x with io := io } = some (r, y) ∧ Healthy r y ∧
      ((Rel q v s y ∧ ((∃ k, Generous (k + 2) alloc io) → l = [])) ∨
       ∃ p l' v' s', payloads l = p :: payloads l' ∧ messages v'.log = messages v.log ++ [p] ∧
         Rel q v' s' y ∧ Expects L H v' l' s') := by
  obtain ⟨r, y, h1, h2⟩ := rel_receive hsz hT hal hr io
  refine ⟨r, y, h1, ?_⟩
  have he := expects_one hsz L hT (rel_suite hr) h
  cases h2 with
  | waits hr' hh hm =>
    refine ⟨hh, .inl ⟨hr', fun hg => ?_⟩⟩
    rcases he with ⟨e, _, _⟩ | ⟨p, l', s', r', v', _, e, _⟩
    · exact e
    · rw [hm hg] at e; simp at e
  | done v' rest hd hr' hh =>
    refine ⟨hh, .inr ?_⟩
    rcases he with ⟨_, _, e⟩ | ⟨p, l', s', r', v2, e0, e, e1, e2⟩
    · rw [hd] at e; simp at e
    · rw [hd] at e
      simp only [Out.done.injEq] at e
      obtain ⟨rfl, rfl, rfl⟩ := e
      exact ⟨p, l', v', rest, e0, e1, hr', e2⟩
  | fails e hb _ _ =>
    rcases he with ⟨_, _, e⟩ | ⟨p, l', s', r', v2, e0, e, e1, e2⟩ <;> · rw [hb] at e; simp at e

/-- Any history of calls on a connection that expects `l`. -/
theorem expects_run (hsz : Sizes P) (L : Laws P) {H : Handlers P A} (hT : Tame H) (as : List RxStep) :
    ∀ {q : Nat} {v : View P A} {l : List Item} {s : Bytes} {x : Conn P A}, (∀ a ∈ as, Usable a) →
    Rel q v s x → Expects L H v l s →
    ∃ rs y v' l' s', rxRun H x as = some (rs, y) ∧
      messages v.log ++ payloads l = messages v'.log ++ payloads l' ∧ Rel q v' s' y ∧ Expects L H v' l' s' := by
  induction as with
  | nil => intro q v l s x _ hr he; exact ⟨[], x, v, l, s, rfl, rfl, hr, he⟩
  | cons a as ih =>
    intro q v l s x hu hr he
    have hstep : ∃ r y v1 l1 s1, rxStep H x a = some (r, y) ∧
        messages v.log ++ payloads l = messages v1.log ++ payloads l1 ∧ Rel q v1 s1 y ∧ Expects L H v1 l1 s1 := by
      cases a with
      | receive alloc io =>
        obtain ⟨r, y, h1, _, h3⟩ := expects_call hsz L hT (alloc := alloc) (hu (.receive alloc io) (by simp)) io hr he
        refine ⟨r, y, ?_⟩
        rcases h3 with ⟨h3, _⟩ | ⟨p, l', v', s', h3, h4, h5, h6⟩
        · exact ⟨v, l, s, h1, rfl, h3, he⟩
        · exact ⟨v', l', s', h1, by rw [h4, h3]; simp, h5, h6⟩
      | flushed =>
        have hd : dropHeld x = some x := by unfold dropHeld; cases hr <;> simp [mk]
        exact ⟨none, x, v, l, s, by unfold rxStep; rw [hd]; rfl, rfl, hr, he⟩
    obtain ⟨r, y, v1, l1, s1, h1, h3, h4, h5⟩ := hstep
    obtain ⟨rs, z, v2, l2, s2, g1, g3, g4, g5⟩ := ih (fun a h => hu a (by simp [h])) h4 h5
    exact ⟨r :: rs, z, v2, l2, s2, by unfold rxRun; rw [h1]; simp only [g1], h3.trans g3, g4, g5⟩

theorem expects_drain (hsz : Sizes P) (L : Laws P) {H : Handlers P A} (hT : Tame H) (as : List RxStep) :
    ∀ {q : Nat} {v : View P A} {l : List Item} {s : Bytes} {x : Conn P A}, (∀ a ∈ as, Plenty a) →
    Rel q v s x → Expects L H v l s → (payloads l).length ≤ as.length →
    ∃ rs y v' s', rxRun H x as = some (rs, y) ∧
      messages v.log ++ payloads l = messages v'.log ∧ Rel q v' s' y ∧ Expects L H v' [] s' := by
  induction as with
  | nil =>
    intro q v l s x _ hr he hl
    have : payloads l = [] := by simpa using hl
    have hl : l = [] := by
      rcases expects_one hsz L hT (rel_suite hr) he with ⟨h, _⟩ | ⟨p, l', _, _, _, h, _⟩
      · exact h
      · rw [this] at h; simp at h
    subst hl
    exact ⟨[], x, v, s, rfl, by simp [payloads], hr, he⟩
  | cons a as ih =>
    intro q v l s x hu hr he hlen
    obtain ⟨alloc, io, k, rfl, hal, hg⟩ := hu a (by simp)
    obtain ⟨r, y, h1, _, h3⟩ := expects_call hsz L hT hal io hr he
    rcases h3 with ⟨h3, h4⟩ | ⟨p, l', v', s', h3, h4, h5, h6⟩
    · have hl := h4 ⟨k, hg⟩
      subst hl
      obtain ⟨rs, z, v2, s2, g1, g3, g4, g5⟩ := ih (fun a h => hu a (by simp [h])) h3 he (by simp [payloads])
      exact ⟨r :: rs, z, v2, s2, by unfold rxRun; rw [show rxStep H x (.receive alloc io) = some (r, y) from h1]; simp only [g1], g3, g4, g5⟩
    · obtain ⟨rs, z, v2, s2, g1, g3, g4, g5⟩ := ih (fun a h => hu a (by simp [h])) h5 h6
        (by rw [h3] at hlen; simpa using hlen)
      exact ⟨r :: rs, z, v2, s2, by unfold rxRun; rw [show rxStep H x (.receive alloc io) = some (r, y) from h1]; simp only [g1], by rw [← g3, h4, h3]; simp, g4, g5⟩

/-- The nonces of packets opened one after the other. -/
theorem one_nonce {H : Handlers P A} {v v' : View P A} {s rest : Bytes} {r : Option Err}
    (hae : v.suite.aead = true) (hk : ∀ a m p, (H.run a m p).2.2.2 = none) (h : one H v s = .done r v' rest) :
    ∃ q pk ct tag msg payload, v'.log = v.log ++ [.opened v.suite q pk ct tag, .acted v'.suite v.seq msg payload, .finished r] ∧
      v'.suite = { v.suite with iv := aeadIncrementExpIv v.suite.iv } := by
  have hna : ¬ v.suite.aead = false := by simp [hae]
  unfold one firstBlock at h
  split at h
  · simp at h
  simp only at h
  split at h
  · simp at h
  unfold finishOne at h
  simp only at h
  split at h
  · simp at h
  unfold openOn at h
  simp only [if_neg hna] at h
  split at h
  · simp at h
  · rename_i s' c' u' ev ho
    split at ho
    · simp at ho
    split at ho
    · simp at ho
    simp only [Opening.good.injEq] at ho
    obtain ⟨rfl, rfl, rfl, hev⟩ := ho
    have hex : ∃ pk ct tag, ev = .opened v.suite v.seq pk ct tag := ⟨_, _, _, hev.symm⟩
    obtain ⟨pk, ct, tag, rfl⟩ := hex
    clear hev
    split at h
    · simp at h
    · simp at h
    rename_i r2 v2 ha
    simp only [Out.done.injEq] at h
    obtain ⟨rfl, rfl, rfl⟩ := h
    unfold act at ha
    split at ha
    · simp at ha
    rename_i msg payload _
    unfold handOver at ha
    simp only [hk] at ha
    split at ha
    · simp at ha
    simp only [Acted.done.injEq] at ha
    obtain ⟨rfl, rfl⟩ := ha
    refine ⟨v.seq, pk, ct, tag, msg, payload, ?_, rfl⟩
    simp only [List.append_assoc, List.cons_append, List.nil_append]

theorem nonce_next {iv x : Bytes} {k : Nat} (h : NonceAt iv k x) : NonceAt iv (k + 1) (aeadIncrementExpIv x) := by
  obtain ⟨h1, h2, h3⟩ := h
  obtain ⟨g1, g2, g3⟩ := increment_spec x h1
  refine ⟨g1, by rw [g2, h2], ?_⟩
  rw [g3, h3]; omega

theorem openedIn_append (a b : List Event) : openedIn (a ++ b) = openedIn a + openedIn b := by
  simp [openedIn]

/-- The nonces along a chain of packets under one key. -/
theorem chain_nonce {H : Handlers P A} (hk : ∀ a m p, (H.run a m p).2.2.2 = none) {n : Nat} {v v' : View P A} {s s' : Bytes}
    (h : Chain H n v s v' s') : SuiteOk v.suite → v.suite.aead = true → ∀ (iv : Bytes) (k0 : Nat),
    NonceAt iv k0 v.suite.iv → k0 = openedIn v.log → NoncesFrom iv v.log →
    SuiteOk v'.suite ∧ v'.suite.aead = true ∧ NonceAt iv (openedIn v'.log) v'.suite.iv ∧ NoncesFrom iv v'.log := by
  induction h with
  | nil => intro h1 h2 iv k0 h3 h4 h5; subst h4; exact ⟨h1, h2, h3, h5⟩
  | cons _ r h1 ih =>
    rename_i v1 v2 _ s1 s2 hc
    intro g1 g2 iv k0 g3 g4 g5
    obtain ⟨i1, i2, i3, i4⟩ := ih g1 g2 iv k0 g3 g4 g5
    obtain ⟨q, pk, ct, tag, msg, payload, e1, e2⟩ := one_nonce i2 hk h1
    have hiv := i1.2.2.2 i2
    have hs2 : SuiteOk v2.suite := by rw [e2]; exact suite_iv i1 _ (increment_spec _ hiv).1
    have hoc : openedIn v2.log = openedIn v1.log + 1 := by rw [e1, openedIn_append]; rfl
    refine ⟨hs2, by rw [e2]; exact i2, by rw [hoc, e2]; exact nonce_next i3, ?_⟩
    rw [e1]
    intro pre s q' pk' ct' tag' post he
    rw [show v1.log ++ [Event.opened v1.suite q pk ct tag, .acted v2.suite v1.seq msg payload, .finished r]
      = ((v1.log ++ [Event.opened v1.suite q pk ct tag]) ++ [.acted v2.suite v1.seq msg payload]) ++ [.finished r] by simp] at he
    rcases snoc_cases he with ⟨_, _, h⟩ | ⟨_, _, he⟩
    · simp at h
    rcases snoc_cases he with ⟨_, _, h⟩ | ⟨_, _, he⟩
    · simp at h
    rcases snoc_cases he with ⟨_, rfl, h⟩ | ⟨_, _, he⟩
    · simp only [Event.opened.injEq] at h
      rw [← h.1]; exact i3
    · exact i4 _ _ _ _ _ _ _ he

end Proofs.Receive
